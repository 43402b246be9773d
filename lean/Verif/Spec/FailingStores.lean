import Verif.Spec.StoreReaders

/-!
# Data stores that cannot be read to their end
-/

namespace Mlio.Spec

/-- The data store cannot be opened: there is nothing behind it, or it is compressed in a format that is not supported.  (URIs
of objects are well-formed: making a store of another one is already an error.) -/
def CannotOpen (w : World) (st : Store) : Prop :=
  ((∀ x, ¬ BytesBehind w st x) ∧ ∀ uri v c, st = .object uri v c → ∃ b k, IsObjectUri uri b k) ∨
  ((∃ x, BytesBehind w st x) ∧ (st.compression = .bzip2 ∨ st.compression = .zip))

/-- The data store holds the frames, and behind them something that does not begin with a frame: one that was cut, bytes that
were changed, or the like. -/
def Damaged (z : Inflater) (w : World) (st : Store) (frames : List Frame) : Prop :=
  (∀ f ∈ frames, f.Valid) ∧ ∃ junk, junk ≠ [] ∧ (¬ ∃ f : Frame, f.Valid ∧ f.bytes <+: junk) ∧
    StoreHolds z w st (recordioFile frames ++ junk) ∧ (recordioFile frames ++ junk).length < 2 ^ 31

/-- The data store cannot be read beyond the frames. -/
def BreaksAfter (z : Inflater) (w : World) (st : Store) (frames : List Frame) : Prop :=
  (CannotOpen w st ∧ frames = []) ∨ Damaged z w st frames

/-- The bytes, up to their end or that of the member, are in order, and do not stand for anything. -/
def quiet (z : Inflater) : z.σ → Bytes → Bool
  | _, [] => true
  | s, b :: bs =>
    match z.feed s b with
    | .more out s' => out.isEmpty && quiet z s' bs
    | .last => true
    | .bad => false

/-- Wherever a block or a member begins, what follows, up to the end of that block or member (whichever comes first), stands
for something, or is not in order. -/
def Outspoken (z : Inflater) (blocks : List Bytes) : Prop :=
  ∀ pre b post x y s fresh, blocks = pre ++ b :: post → b = x ++ y → y ≠ [] →
    after z z.init true (pre.flatten ++ x) = some (s, fresh) → (x = [] ∨ fresh = true) → quiet z s y = false

/-- The data store is compressed, but is not a gzip file: one that was cut, or whose bytes were changed.  The bytes `x` are what
stands in front of that place. -/
def CutGzip (z : Inflater) (w : World) (st : Store) (x : Bytes) : Prop :=
  ∃ all, BytesBehind w st all ∧ all.length < 2 ^ 63 ∧ st.compression = .gzip ∧ (¬ ∃ ms c, GzFile z ms all c) ∧
    x = unzip z z.init all ∧ ∀ s blocks, st.raw w = .ok s → Delivers rawIn s blocks → Outspoken z blocks

/-- The data store is compressed and was cut or damaged; in front of that place is a part of a file that holds the text, and none
of the known deviations is in the way: see `StoreHoldsText`. -/
structure CutText (z : Inflater) (w : World) (crlfSafe : Prop) (enc : Encoding) (text : Bytes) (st : Store) : Prop where
  holds : ∃ x file, CutGzip z w st x ∧ x <+: file ∧ Encodes enc text file ∧ (enc ≠ .utf8 → enc ≠ .utf8Mark → 4 < file.length)
  size : text.length + 3 < 2 ^ 31
  notZero : enc = .utf16 false → text.head? ≠ some 0
  fits : text.length + 3 < chunkSize ∨ (crlfSafe ∨ ¬ [13, 10] <:+: text)

/-- A data store with lines of text that was cut: see `TextStore.Good`. -/
structure TextStore.Cut (z : Inflater) (w : World) (t : TextStore) : Prop where
  valid : t.text.Valid
  noMark : ∀ l ∈ t.text.content, ¬ utf8Bom <+: l
  stored : CutText z w False t.enc t.text.bytes t.store

/-- A data store with a table that was cut: see `CsvStore.Good`. -/
structure CsvStore.Cut (z : Inflater) (w : World) (p : CsvParams) (t : CsvStore) : Prop where
  sheet : t.table.Good p
  stored : CutText z w (CrlfSafe p) t.enc (t.table.bytes p.delimiter p.quote) t.store

/-- A data store with RecordIO frames that was cut. -/
structure ProtoStore.Cut (z : Inflater) (w : World) (t : ProtoStore) : Prop where
  valid : ∀ f ∈ t.frames, f.Valid
  holds : ∃ x, CutGzip z w t.store x ∧ x <+: recordioFile t.frames
  size : (recordioFile t.frames).length < 2 ^ 31

/-- The instances that can be put together from the frames of the stores, up to the first place where that is impossible. -/
def InstancesBefore (frames : List (List Frame)) (is : List (Nat × Option Bytes)) : Prop :=
  ∃ e en, Assembles (.fail e) (items 0 (frames.map fun fs => .records (fs.map fun x => ⟨x.kind, x.payload⟩) none)).1 is en

end Mlio.Spec
