import Verif.Spec.Hll
import Verif.Spec.Xxhash
import Mathlib.Analysis.SpecialFunctions.Log.Basic

/-!
# What the estimated number of distinct texts is meant to be
-/

namespace Mlio.Spec

/-- The first 16 bits of the hash of a text. -/
def bucketOf (text : Bytes) : Nat := (XXH32.hash 0 text).toNat / 2 ^ 16

/-- The texts are in exactly `k` different buckets. -/
def InBuckets (texts : List Bytes) (k : Nat) : Prop :=
  ∃ bs : List Nat, bs.Nodup ∧ bs.length = k ∧ ∀ i, i ∈ bs ↔ ∃ t ∈ texts, bucketOf t = i

/-- There are exactly `k` different texts. -/
def Distinct (texts : List Bytes) (k : Nat) : Prop := ∃ ds : List Bytes, ds.Nodup ∧ ds.length = k ∧ ∀ t, t ∈ ds ↔ t ∈ texts

/-- A hash with zeros only behind the bucket. -/
def EndsInZeros (text : Bytes) : Prop := (XXH32.hash 0 text).toNat % 2 ^ 16 = 0

/-- An estimator of 65536 registers counts its empty buckets: there are some, and the estimate of Flajolet et al. (figure 3 of the paper
on HyperLogLog) is at most 2.5 for each register. -/
def CountsEmpty (s : Hll) : Prop :=
  0 ∈ s.regs ∧ 0.7213 / (1 + 1.079 / 65536) * 65536 ^ 2 / (s.regs.map (fun r => (1 / 2 : ℝ) ^ r)).sum ≤ 2.5 * 65536

end Mlio.Spec
