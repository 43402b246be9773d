import Verif.Basic

/-!
# Cardinality estimators

`src/mlio-py/mlio/contrib/insights/hll/hyperloglog.cc` and `.h`.

The hash function (`XXH32`) is a parameter.  The floating point formula of `estimate` (75-98) is in `Model/Estimate.lean`: it is a
function of the registers.
-/

namespace Mlio

/-- A `HyperLogLog`, `hyperloglog.h` 97-106: `b_` and `M_`.  (`m_` is the size of `M_`.) -/
structure Hll where
  b : Nat
  regs : List Nat
  deriving DecidableEq, Repr

/-- The constructor, `hyperloglog.cc` 35-57.  The registers are allocated before the check, so that `1 << b` comes first. -/
def Hll.new (b : Nat) : Res Hll :=
  if 32 ≤ b then .ub "shift by 32 or more"
  else if b < 4 ∨ 30 < b then .err .invalidArgument
  else .ok ⟨b, List.replicate (2 ^ b) 0⟩

/-- The loop of `_get_leading_zero_count`, `hyperloglog.h` 59-64: the number of zeros at the head of the 32 bits of `x`,
at most `n`. -/
def leadingZeros : (n : Nat) → (x : Nat) → Nat
  | 0, _ => 0
  | n + 1, x => if 2 ^ 31 ≤ x then 0 else 1 + leadingZeros n (2 * x % 2 ^ 32)

/-- `_GET_CLZ`, `hyperloglog.h` 44-68.  `builtin` is whether the compiler is one that has `__builtin_clz`, the result of
which is undefined for zero.  The variant for MSVC is left out. -/
def getClz (builtin : Bool) (x n : Nat) : Res Nat :=
  if builtin then
    if x = 0 then .ub "__builtin_clz(0)" else .ok (min n (leadingZeros 32 x) + 1)
  else .ok (1 + leadingZeros n x)

/-- `add`, `hyperloglog.cc` 59-73; `hash` is that of the value, below 2^32. -/
def Hll.add (builtin : Bool) (s : Hll) (hash : Nat) : Res Hll :=
  let index := hash / 2 ^ (32 - s.b)
  match getClz builtin (hash * 2 ^ s.b % 2 ^ 32) (32 - s.b) with
  | .ok rank => .ok (if s.regs.getD index 0 < rank then { s with regs := s.regs.set index rank } else s)
  | .err e => .err e
  | .ub w => .ub w

/-- Adding values one after another. -/
def Hll.addAll (builtin : Bool) (s : Hll) : List Nat → Res Hll
  | [] => .ok s
  | h :: hs => match s.add builtin h with
    | .ok s' => s'.addAll builtin hs
    | .err e => .err e
    | .ub w => .ub w

/-- `merge`, `hyperloglog.cc` 100-112. -/
def Hll.merge (s t : Hll) : Res Hll :=
  if s.regs.length ≠ t.regs.length then .err .invalidArgument
  else .ok { s with regs := List.zipWith (fun x y => if x < y then x ||| y else x) s.regs t.regs }

/-- `clear`, `hyperloglog.cc` 114-117. -/
def Hll.clear (s : Hll) : Hll := { s with regs := s.regs.map (fun _ => 0) }

end Mlio
