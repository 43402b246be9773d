import Verif.Spec.FailingStores

/-!
# Data stores with text that is not well formed
-/

namespace Mlio.Spec

/-- A character in the encoding. -/
def Encoding.char : Encoding → Char → Bytes
  | .utf8, ch => encode8 ch
  | .utf8Mark, ch => encode8 ch
  | .utf16 be, ch => encode16 be ch
  | .utf32 be, ch => encode32 be ch

/-- There is something, but it does not begin with a character in the encoding: half of a surrogate pair, a number that is not that of
a character, or a character of which only some bytes are there. -/
def NoCharacter (enc : Encoding) (junk : Bytes) : Prop := junk ≠ [] ∧ ∀ ch, ¬ enc.char ch <+: junk

/-- The data store holds a beginning of the text, in UTF-16 or UTF-32, and then bytes that are not text in that encoding (and after
them, whatever one likes); none of the known deviations is in the way: see `StoreHoldsText`. -/
structure GarbledText (z : Inflater) (w : World) (crlfSafe : Prop) (enc : Encoding) (text : Bytes) (st : Store) : Prop where
  wide : enc ≠ .utf8 ∧ enc ≠ .utf8Mark
  holds : ∃ part file junk, StoreHolds z w st (file ++ junk) ∧ Encodes enc part file ∧ part <+: text ∧ NoCharacter enc junk ∧
    (st.compression = .none ∨ 4 < (file ++ junk).length)
  size : text.length + 3 < 2 ^ 31
  notZero : enc = .utf16 false → text.head? ≠ some 0
  fits : text.length + 3 < chunkSize ∨ (crlfSafe ∨ ¬ [13, 10] <:+: text)

/-- A data store with lines of text that is not well formed somewhere: see `TextStore.Good`. -/
structure TextStore.Garbled (z : Inflater) (w : World) (t : TextStore) : Prop where
  valid : t.text.Valid
  noMark : ∀ l ∈ t.text.content, ¬ utf8Bom <+: l
  stored : GarbledText z w False t.enc t.text.bytes t.store

/-- A data store with a table that is not well formed somewhere: see `CsvStore.Good`. -/
structure CsvStore.Garbled (z : Inflater) (w : World) (p : CsvParams) (t : CsvStore) : Prop where
  sheet : t.table.Good p
  stored : GarbledText z w (CrlfSafe p) t.enc (t.table.bytes p.delimiter p.quote) t.store

end Mlio.Spec
