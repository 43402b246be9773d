import Verif.Spec.DataStore
import Verif.Spec.CsvReader
import Verif.Model.StoreReaders

/-!
# What data readers are meant to deliver from data stores
-/

namespace Mlio.Spec

/-- Is the data in memory as it is: bytes given by the user, or a file that is mapped? -/
def InMemory : Store → Bool
  | .file _ memoryMap c => memoryMap && c == .none
  | .memory _ c => c == .none
  | .object _ _ _ => false

/-- The data store holds the text, and none of the known deviations is in the way: see `Stored`.  A store that is compressed
cannot seek. -/
structure StoreHoldsText (z : Inflater) (w : World) (crlfSafe : Prop) (enc : Encoding) (text : Bytes) (st : Store) : Prop where
  holds : ∃ file, StoreHolds z w st file ∧ Encodes enc text file ∧
    (enc ≠ .utf8 → enc ≠ .utf8Mark → st.compression = .none ∨ 4 < file.length)
  size : text.length + 3 < 2 ^ 31
  notZero : enc = .utf16 false → text.head? ≠ some 0
  fits : (InMemory st = true ∧ enc = .utf8) ∨ text.length + 3 < chunkSize ∨ (crlfSafe ∨ ¬ [13, 10] <:+: text)

/-- A data store with lines of text. -/
structure TextStore where
  text : Text
  enc : Encoding
  store : Store

/-- See `TextFile.Good`. -/
structure TextStore.Good (z : Inflater) (w : World) (t : TextStore) : Prop where
  valid : t.text.Valid
  noMark : ∀ l ∈ t.text.content, ¬ utf8Bom <+: l
  stored : StoreHoldsText z w False t.enc t.text.bytes t.store

/-- A data store with a CSV file. -/
structure CsvStore where
  table : Sheet
  enc : Encoding
  store : Store

/-- See `CsvFile.Good`. -/
structure CsvStore.Good (z : Inflater) (w : World) (p : CsvParams) (t : CsvStore) : Prop where
  sheet : t.table.Good p
  stored : StoreHoldsText z w (CrlfSafe p) t.enc (t.table.bytes p.delimiter p.quote) t.store

/-- A data store with RecordIO frames. -/
structure ProtoStore where
  frames : List Frame
  store : Store

/-- The frames are valid, and the store holds them, in less than 2 GiB. -/
structure ProtoStore.Good (z : Inflater) (w : World) (t : ProtoStore) : Prop where
  valid : ∀ f ∈ t.frames, f.Valid
  holds : StoreHolds z w t.store (recordioFile t.frames)
  size : (recordioFile t.frames).length < 2 ^ 31

end Mlio.Spec
