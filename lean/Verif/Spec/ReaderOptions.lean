import Verif.Model.ReaderOptions

/-!
# Which options make sense
-/

namespace Mlio.Spec

/-- The number that a `float` stands for, if it is one. -/
def singleValue (s : Single) : Option Rat :=
  if s.expo.val = 255 then none
  else
    let magnitude : Rat :=
      if s.expo.val = 0 then (s.frac.val : Rat) / (2 ^ 149 : Nat)
      else (((2 ^ 23 + s.frac.val) * 2 ^ s.expo.val : Nat) : Rat) / (2 ^ 150 : Nat)
    some (if s.neg then -magnitude else magnitude)

/-- A sample ratio makes sense if it is a number greater than 0 and less than 1. -/
def GoodRatio (s : Single) : Prop := ∃ q, singleValue s = some q ∧ 0 < q ∧ q < 1

/-- Not a number: neither finite nor one of the infinities. -/
def NotANumber (s : Single) : Prop := s.expo.val = 255 ∧ s.frac.val ≠ 0

/-- Options that make sense. -/
structure GoodOptions (o : RawOptions) : Prop where
  batch : 0 < o.batchSize
  shard : o.shardIndex < o.numShards ∨ (o.shardIndex = 0 ∧ o.numShards = 0)
  ratio : ∀ s, o.sampleRatio = some s → GoodRatio s

end Mlio.Spec
