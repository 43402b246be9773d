import Verif.Model.PyBuffer
import Verif.Model.Parquet

/-!
# Giving a Python buffer back
-/

namespace Mlio.Spec

/-- The buffer is never given back by a thread that does not hold the interpreter lock. -/
def ReleasedLocked (s : HoldState) : Prop := ∀ l ∈ s.released, l = true

/-- An object other than the one at place `i` refers to the block. -/
def HeldBesides (s : HoldState) (i : Nat) : Prop := ∃ k o, k ≠ i ∧ s.obj k = some o ∧ s.holds o = true

/-- The next `read_record` or `peek_record` of the reader returns `None`. -/
def ReturnsNone (r : HoldReader) : Prop := r.peeked = false ∧ (r.readCore parquetDecode).1 = .ok none

/-- The call of `a` is `read_record` or `peek_record` of the reader at place `i`. -/
def IsRead (a : HoldAct) (i : Nat) : Prop := a = .readRecord i ∨ a = .peekRecord i

end Mlio.Spec
