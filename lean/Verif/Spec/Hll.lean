import Verif.Model.Hll

/-!
# What cardinality estimators are meant to be
-/

namespace Mlio.Spec

/-- The first `b` of the 32 bits of a hash. -/
def bucket (b hash : Nat) : Nat := hash / 2 ^ (32 - b)

/-- The place, counted from one, of the first one among the other bits of a hash; the place after the last one if there
is none. -/
def FirstOne (b hash r : Nat) : Prop :=
  (hash % 2 ^ (32 - b) = 0 ∧ r = 33 - b) ∨
  (1 ≤ r ∧ r ≤ 32 - b ∧ 2 ^ (32 - b - r) ≤ hash % 2 ^ (32 - b) ∧ hash % 2 ^ (32 - b) < 2 ^ (32 - b - r + 1))

/-- The estimator of a set of values with the given hashes: each register holds the largest place of the first one
among the values of its bucket, and zero if it has none. -/
structure IsSketch (b : Nat) (hs : Nat → Prop) (s : Hll) : Prop where
  width : s.b = b
  size : s.regs.length = 2 ^ b
  bound : ∀ h, hs h → ∃ r, FirstOne b h r ∧ r ≤ s.regs.getD (bucket b h) 0
  reached : ∀ i, i < 2 ^ b → s.regs.getD i 0 = 0 ∨ ∃ h, hs h ∧ bucket b h = i ∧ FirstOne b h (s.regs.getD i 0)

/-- The widths that are allowed. -/
def HllWidth (b : Nat) : Prop := 4 ≤ b ∧ b ≤ 30

/-- 32 bit hashes; with a compiler that has `__builtin_clz`, none of those that leave no bits after the bucket. -/
def Hashes (builtin : Bool) (b : Nat) (hs : List Nat) : Prop :=
  ∀ h ∈ hs, h < 2 ^ 32 ∧ (builtin = true → h % 2 ^ (32 - b) ≠ 0)

end Mlio.Spec
