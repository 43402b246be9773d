import Verif.Model.Xxhash
import Mathlib.Analysis.SpecialFunctions.Log.Basic

/-!
# Estimated numbers of distinct texts

`src/mlio-py/mlio/contrib/insights/hll/hyperloglog.cc` 35-57, 75-98 and `column_statistics.h` 44-47, 62-65.

Numbers of type `double` are real numbers, without rounding.  A result that is not a finite number is `none`.
-/

namespace Mlio

/-- `alpha`, `hyperloglog.cc` 41-55, for `m` registers. -/
noncomputable def hllAlpha (m : Nat) : ℝ :=
  if m = 16 then 0.673 else if m = 32 then 0.697 else if m = 64 then 0.709 else 0.7213 / (1 + 1.079 / m)

/-- `std::log`: not a finite number unless the argument is positive. -/
noncomputable def logOf (x : ℝ) : Option ℝ := if 0 < x then some (Real.log x) else none

/-- The sum of the loop, `hyperloglog.cc` 78-81.  (`1 << M_[i]` is defined for registers below 31; those of an estimator are at most 29,
see C53.) -/
noncomputable def Hll.sum (s : Hll) : ℝ := (s.regs.map (fun r => 1 / (2 ^ r : ℝ))).sum

/-- The first estimate, `hyperloglog.cc` 56, 82. -/
noncomputable def Hll.raw (s : Hll) : ℝ := hllAlpha s.regs.length * s.regs.length * s.regs.length / s.sum

/-- The second loop, `hyperloglog.cc` 84-89. -/
def Hll.zeros (s : Hll) : Nat := s.regs.count 0

open Classical in
/-- `estimate`, `hyperloglog.cc` 75-98. -/
noncomputable def Hll.estimate (s : Hll) : Option ℝ :=
  if s.raw ≤ 2.5 * s.regs.length then
    if s.zeros ≠ 0 then (logOf (s.regs.length / s.zeros)).map (s.regs.length * ·) else some s.raw
  else if s.raw > 1 / 30 * 2 ^ 32 then (logOf (1 - s.raw / 2 ^ 32)).map (-2 ^ 32 * ·)
  else some s.raw

open Classical in
/-- `static_cast<std::size_t>(std::round(x))`, `column_statistics.h` 46, 64: undefined if `x` is not a finite number or the rounded number is
not one of `std::size_t`. -/
noncomputable def castRound : Option ℝ → Res Nat
  | none => .ub "not a number"
  | some x =>
    if x ≤ -1 / 2 then .ub "negative"
    else if (2 : ℝ) ^ 64 ≤ x + 1 / 2 then .ub "too large"
    else .ok ⌊x + 1 / 2⌋₊

/-- `estimate_string_cardinality` and `estimate_string_vocab_cardinality`, `column_statistics.h` 44-47, 62-65. -/
noncomputable def Hll.cardinality (s : Hll) : Res Nat := castRound s.estimate

end Mlio
