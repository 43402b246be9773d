import Verif.Model.StreamReader

/-!
# The expected size of records

`Stream_record_reader::record_size_hint` and `set_record_size_hint`, which a program may call between reads.
-/

namespace Mlio

/-- `set_record_size_hint(value)`, `stream_record_reader.cc` 35-38, with `Default_chunk_reader::set_chunk_size_hint`, `default_chunk_reader.cc` 97-102, for a
`size_t` of 64 bits: the loop that starts with the size `next` ends with the size `r`.  Shifting drops the highest bit. -/
inductive HintEnds (value : Nat) : (next r : Nat) → Prop
  | stop (next : Nat) : ¬ value > next → HintEnds value next next
  | shift (next r : Nat) : value > next → HintEnds value (next * 2 % 2 ^ 64) r → HintEnds value next r

/-- What a program does with a record reader. -/
inductive HintAct where
  /-- `read_record()`. -/
  | read
  /-- `set_record_size_hint(value)`. -/
  | hint (value : Nat)
  /-- `record_size_hint()`. -/
  | get

/-- What the program is given. -/
inductive HintOut (ρ : Type) where
  | record (o : Res (Option ρ))
  | size (n : Nat)

/-- A history of calls that all return, for a stream that is read in chunks (`default_chunk_reader.h` 45-50; `stream_record_reader.cc` 30-38). -/
inductive HintRun {ρ : Type} (dec : Bytes → Bool → Dec ρ) : Reader → List HintAct → List (HintOut ρ) → Prop
  | nil (st : Reader) : HintRun dec st [] []
  | read (st : Reader) (as : List HintAct) (os : List (HintOut ρ)) :
      HintRun dec (st.read dec).2 as os → HintRun dec st (.read :: as) (.record (st.read dec).1 :: os)
  | hint (st : Reader) (v r : Nat) (as : List HintAct) (os : List (HintOut ρ)) : HintEnds v st.cr.next r →
      HintRun dec { st with cr := { st.cr with next := r } } as os → HintRun dec st (.hint v :: as) os
  | get (st : Reader) (as : List HintAct) (os : List (HintOut ρ)) :
      HintRun dec st as os → HintRun dec st (.get :: as) (.size st.cr.next :: os)

/-- The same for a stream whose bytes are in memory: there, sizes are ignored, `in_memory_chunk_reader.h` 41-47. -/
def memHintRun {ρ : Type} (dec : Bytes → Bool → Dec ρ) : MemReader → List HintAct → List (HintOut ρ)
  | _, [] => []
  | st, .read :: as => .record (st.read dec).1 :: memHintRun dec (st.read dec).2 as
  | st, .hint _ :: as => memHintRun dec st as
  | st, .get :: as => .size 0 :: memHintRun dec st as

end Mlio
