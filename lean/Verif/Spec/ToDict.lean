import Verif.Model.ToDict
import Verif.Spec.Insights
import Verif.Spec.PyError

/-! # What the dictionary of a column is meant to say -/

namespace Mlio.Spec

/-- The contract of `std::nth_element`: the elements are reordered, those before the place `n` are not greater, and those behind it
not smaller, than the one there. -/
def NthOk (nth : List Rat → Nat → List Rat) : Prop :=
  ∀ l n, n < l.length → (nth l n).Perm l ∧
    ∀ x, (nth l n)[n]? = some x → (∀ y ∈ (nth l n).take n, y ≤ x) ∧ ∀ y ∈ (nth l n).drop (n + 1), x ≤ y

/-- The median of some numbers, the greater one of the two in the middle if their count is even; NaN if there is none: at most half of them are smaller,
less than half of them are greater. -/
def IsMedian (l : List Rat) : Option Rat → Prop
  | none => l = []
  | some m => m ∈ l ∧ 2 * (l.filter (fun x => decide (x < m))).length ≤ l.length ∧ 2 * (l.filter (fun x => decide (m < x))).length < l.length

/-- A decimal digit. -/
def IsDigit (c : UInt8) : Prop := 48 ≤ c.toNat ∧ c.toNat ≤ 57

/-- The number that some digits stand for. -/
def numeral (ds : Bytes) : Nat := ds.foldl (fun n d => 10 * n + (d.toNat - 48)) 0

/-- The usual way to write a number. -/
def IsNumeral (ds : Bytes) (n : Nat) : Prop :=
  ds ≠ [] ∧ (∀ d ∈ ds, IsDigit d) ∧ (ds.head? = some 48 → ds = [48]) ∧ numeral ds = n

/-- A number with six decimals that is as near to `q` as possible. -/
def IsFixed6 (b : Bytes) (q : Rat) : Prop :=
  ∃ whole frac n, b = (if q < 0 then [45] else []) ++ whole ++ [46] ++ frac ∧ IsNumeral whole n ∧
    frac.length = 6 ∧ (∀ d ∈ frac, IsDigit d) ∧
    (let v : Rat := n + numeral frac / 10 ^ 6
     2 * 10 ^ 6 * (q.abs - v) ≤ 1 ∧ 2 * 10 ^ 6 * (v - q.abs) ≤ 1)

end Mlio.Spec
