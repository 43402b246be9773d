import Verif.Model.StreamReader

/-!
# Reading the whole contents at once

The reference against which chunked reading is compared: the decoder is always applied to all
of the bytes that are left, and told that nothing follows them.  No chunk, no buffer, no
short read appears here.
-/

namespace Mlio

/-- One record decoded from all the remaining bytes. -/
def wholeStep {ρ : Type} (dec : Bytes → Bool → Dec ρ) (x : Bytes) : Res (Option ρ) × Bytes :=
  match dec x false with
  | .got r rest => (.ok (some r), rest)
  | .fail e rest => (.err e, rest)
  | .ub w => (.ub w, x)
  | .more _ _ => (.ok none, [])

/-- The first `n` outcomes. -/
def wholeN {ρ : Type} (dec : Bytes → Bool → Dec ρ) : Nat → Bytes → List (Res (Option ρ))
  | 0, _ => []
  | n + 1, x => (wholeStep dec x).1 :: wholeN dec n (wholeStep dec x).2

end Mlio
