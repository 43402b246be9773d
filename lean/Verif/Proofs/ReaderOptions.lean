import Verif.Spec.ReaderOptions
import Verif.Spec.Instances
import Verif.Proofs.Sampling

/-!
# Options of readers: proofs
-/

namespace Mlio
open Spec

theorem natDiv_pos (a b : Nat) (hb : 0 < b) : 0 < (a : Rat) / (b : Rat) ↔ 0 < a := by
  rw [Rat.lt_div_iff (by exact_mod_cast hb), Rat.zero_mul]
  exact_mod_cast Iff.rfl

theorem natDiv_lt_one (a b : Nat) (hb : 0 < b) : (a : Rat) / (b : Rat) < 1 ↔ a < b := by
  rw [Rat.div_lt_iff (by exact_mod_cast hb), Rat.one_mul]
  exact Rat.natCast_lt_natCast

theorem natDiv_nonneg (a b : Nat) (hb : 0 < b) : 0 ≤ (a : Rat) / (b : Rat) := by
  have : ¬ (a : Rat) / (b : Rat) < 0 := by
    rw [Rat.div_lt_iff (by exact_mod_cast hb), Rat.zero_mul]
    intro h
    have : (a : Rat) < ((0 : Nat) : Rat) := h
    rw [Rat.natCast_lt_natCast] at this
    omega
  exact Rat.not_lt.1 this

/-- The numerator and denominator of the magnitude. -/
def Single.fract (s : Single) : Nat × Nat :=
  if s.expo.val = 0 then (s.frac.val, 2 ^ 149) else ((2 ^ 23 + s.frac.val) * 2 ^ s.expo.val, 2 ^ 150)

theorem singleValue_eq (s : Single) (h : s.expo.val ≠ 255) :
    singleValue s = some (if s.neg then -((s.fract.1 : Rat) / (s.fract.2 : Rat)) else (s.fract.1 : Rat) / (s.fract.2 : Rat)) := by
  unfold singleValue Single.fract
  rw [if_neg h]
  by_cases h0 : s.expo.val = 0 <;> simp only [h0, if_true, if_false]

theorem fract_den (s : Single) : 0 < s.fract.2 := by
  unfold Single.fract
  split <;> exact Nat.pow_pos (by decide)

theorem good_iff_fract (s : Single) :
    GoodRatio s ↔ s.expo.val ≠ 255 ∧ s.neg = false ∧ 0 < s.fract.1 ∧ s.fract.1 < s.fract.2 := by
  have hd := fract_den s
  unfold GoodRatio
  by_cases h : s.expo.val = 255
  · simp [singleValue, h]
  · rw [singleValue_eq s h]
    cases hn : s.neg with
    | false =>
      simp only [Bool.false_eq_true, if_false, Option.some.injEq, exists_eq_left', natDiv_pos _ _ hd, natDiv_lt_one _ _ hd]
      simp [h]
    | true =>
      simp only [if_true, Option.some.injEq, exists_eq_left']
      have := natDiv_nonneg s.fract.1 s.fract.2 hd
      constructor
      · rintro ⟨h1, -⟩
        exfalso
        have h2 := (Rat.neg_lt_neg_iff (a := -((s.fract.1 : Rat) / (s.fract.2 : Rat))) (b := 0)).2 h1
        rw [Rat.neg_neg, Rat.neg_zero] at h2
        exact absurd this (Rat.not_le.2 h2)
      · rintro ⟨-, h1, -⟩; simp at h1

theorem fract_lt_iff (s : Single) : s.fract.1 < s.fract.2 ↔ s.expo.val < 127 := by
  have hf := s.frac.isLt
  unfold Single.fract
  by_cases h0 : s.expo.val = 0
  · simp only [h0, if_true]
    exact ⟨fun _ => by decide, fun _ => Nat.lt_trans hf (by decide)⟩
  · simp only [h0, if_false]
    constructor
    · intro h
      refine Nat.lt_of_not_le fun h1 => ?_
      have h2 : 2 ^ 127 ≤ 2 ^ s.expo.val := Nat.pow_le_pow_right (by decide) h1
      have h3 : 2 ^ 23 * 2 ^ 127 ≤ (2 ^ 23 + s.frac.val) * 2 ^ s.expo.val := Nat.mul_le_mul (by omega) h2
      have h4 : (2 : Nat) ^ 23 * 2 ^ 127 = 2 ^ 150 := by decide
      omega
    · intro h
      have h2 : 2 ^ s.expo.val ≤ 2 ^ 126 := Nat.pow_le_pow_right (by decide) (by omega)
      have h3 : (2 ^ 23 + s.frac.val) * 2 ^ s.expo.val ≤ (2 ^ 24 - 1) * 2 ^ 126 := Nat.mul_le_mul (by omega) h2
      exact Nat.lt_of_le_of_lt h3 (by decide)

theorem fract_pos_iff (s : Single) : 0 < s.fract.1 ↔ ¬ (s.expo.val = 0 ∧ s.frac.val = 0) := by
  unfold Single.fract
  by_cases h0 : s.expo.val = 0
  · simp only [h0, if_true, true_and]; omega
  · simp only [h0, if_false, false_and, not_false_iff, iff_true]
    exact Nat.mul_pos (by omega) (Nat.pow_pos (by decide))

theorem good_iff (s : Single) :
    GoodRatio s ↔ s.neg = false ∧ ¬ (s.expo.val = 0 ∧ s.frac.val = 0) ∧ s.expo.val < 127 := by
  rw [good_iff_fract, fract_lt_iff, fract_pos_iff]
  constructor
  · rintro ⟨-, h⟩; exact h
  · intro h; exact ⟨by omega, h⟩

theorem isNan_iff (s : Single) : s.isNan = true ↔ NotANumber s := by
  simp [Single.isNan, NotANumber]

theorem good_not_nan {s : Single} (h : GoodRatio s) : s.isNan = false := by
  have := (good_iff s).1 h
  simp [Single.isNan]
  omega

/-- The test lets a ratio pass exactly if it makes sense or is not a number. -/
theorem refused_iff (s : Single) : s.refused = true ↔ ¬ GoodRatio s ∧ ¬ NotANumber s := by
  rw [good_iff, ← isNan_iff]
  cases hn : s.isNan <;> cases hg : s.neg <;> simp [Single.refused, Single.leZero, Single.geOne, hn, hg] <;> omega

/-- The fraction is the value. -/
theorem ratio_value {s : Single} (h : GoodRatio s) : s.ratio.ok = true ∧
    s.ratio.mant * s.fract.2 = s.fract.1 * 2 ^ s.ratio.exp := by
  have hg := (good_iff s).1 h
  have hf := s.frac.isLt
  unfold Single.ratio Single.fract Ratio.ok
  by_cases h0 : s.expo.val = 0
  · simp only [h0, if_true]
    refine ⟨?_, trivial⟩
    have : 0 < s.frac.val := by omega
    have h1 : s.frac.val < 2 ^ 149 := Nat.lt_trans hf (by decide)
    simp only [this, h1, decide_true, Bool.and_self]
  · simp only [h0, if_false]
    have h1 : (2 : Nat) ^ 24 ≤ 2 ^ (150 - s.expo.val) := Nat.pow_le_pow_right (by decide) (by omega)
    have h2 : 2 ^ 23 + s.frac.val < 2 ^ (150 - s.expo.val) := by omega
    refine ⟨?_, ?_⟩
    · have : 0 < 2 ^ 23 + s.frac.val := by omega
      simp only [this, h2, decide_true, Bool.and_self]
    · rw [Nat.mul_assoc, ← Nat.pow_add]
      congr 2
      omega

theorem refused_ratio {s : Single} (h : s.isNan = false) : s.refused = !s.ratio.ok ∨ s.refused = true := by
  cases hr : s.refused with
  | true => exact .inr rfl
  | false =>
    left
    have h1 : ¬ s.refused = true := by rw [hr]; decide
    rw [refused_iff, ← isNan_iff, h] at h1
    simp only [Bool.false_eq_true, not_false_iff, and_true, Classical.not_not] at h1
    rw [(ratio_value h1).1]; rfl

/-- For a number the reader is the one with the fraction. -/
theorem sampledF_eq {α : Type} (q : Single) (h : q.isNan = false) (inner : Machine α) : sampledF q inner = sampled q.ratio inner := by
  have hfill : sampledFillF inner q = sampledFill inner q.ratio := by
    funext s
    unfold sampledFillF sampledFill Single.keep
    simp only [h, Bool.false_eq_true, if_false]
    rcases hl : sampleLoop inner 100 s.inner [] with ⟨r, i, buf⟩
    cases r <;> simp only
  have hread : sampledReadF inner q = sampledRead inner q.ratio := by
    funext s
    unfold sampledReadF sampledRead
    rw [hfill]
    split
    · rcases hl : sampledFill inner q.ratio s with ⟨r, s'⟩
      cases r <;> rfl
    · rfl
  unfold sampledF sampled
  rw [hread]

/-- The options with the ratio as a fraction. -/
def RawOptions.options (o : RawOptions) : ReadOptions :=
  { toSkip := o.toSkip, toRead := o.toRead, numShards := o.numShards, shardIndex := o.shardIndex,
    sampleRatio := o.sampleRatio.map Single.ratio, shuffle := o.shuffle }

/-- Accepted options without NaN: the reader is the one that the options describe. -/
theorem makeRaw_eq {α : Type} (R : Rng) (o : RawOptions) (core : Machine α)
    (h : ∀ s, o.sampleRatio = some s → GoodRatio s) (r : Machine α) :
    makeRawReader R o core = .ok r ↔ makeInstanceReader R o.options core = some r := by
  unfold makeRawReader makeInstanceReader RawOptions.options
  by_cases hs : o.numShards > 1 ∧ o.shardIndex ≥ o.numShards
  · simp only [hs, and_self, if_true]; simp
  · simp only [hs, if_false]
    cases hq : o.sampleRatio with
    | none =>
      simp only [Option.map_none]
      cases o.shuffle <;> simp
    | some q =>
      have hg := h q hq
      have hr : q.refused = false := by
        cases hr : q.refused with
        | false => rfl
        | true => exact absurd hg ((refused_iff q).1 hr).1
      simp only [Option.map_some, hr, (ratio_value hg).1, Bool.false_eq_true, if_false, if_true, sampledF_eq q (good_not_nan hg)]
      cases o.shuffle <;> simp

theorem makeRaw_error {α : Type} (R : Rng) (o : RawOptions) (core : Machine α) (e : Err) :
    makeRawReader R o core = .error e ↔ e = .invalidArgument ∧ ((o.numShards > 1 ∧ o.shardIndex ≥ o.numShards) ∨
      ∃ s, o.sampleRatio = some s ∧ ¬ GoodRatio s ∧ ¬ NotANumber s) := by
  unfold makeRawReader
  by_cases hs : o.numShards > 1 ∧ o.shardIndex ≥ o.numShards
  · simp only [hs, and_self, if_true, Except.error.injEq, true_or, and_true]
    exact eq_comm
  · simp only [hs, if_false, false_or]
    cases hq : o.sampleRatio with
    | none => cases o.shuffle <;> simp
    | some q =>
      simp only [Option.some.injEq, exists_eq_left', ← refused_iff]
      cases q.refused with
      | true => simp only [if_true, Except.error.injEq, and_true]; exact eq_comm
      | false => cases o.shuffle <;> simp

theorem makeBatch_error {α : Type} (R : Rng) (o : RawOptions) (core : Machine α) (e : Err) :
    makeBatchReader R o core = .error e ↔ e = .invalidArgument ∧ (o.batchSize = 0 ∨ (o.numShards > 1 ∧ o.shardIndex ≥ o.numShards) ∨
      ∃ s, o.sampleRatio = some s ∧ ¬ GoodRatio s ∧ ¬ NotANumber s) := by
  have hx := makeRaw_error R o core
  unfold makeBatchReader
  cases hm : makeRawReader R o core with
  | error e' =>
    have := (hx e').1 hm
    obtain ⟨rfl, h2⟩ := this
    simp only [Except.error.injEq]
    exact ⟨fun h => ⟨h.symm, .inr h2⟩, fun h => h.1.symm⟩
  | ok r =>
    have h0 : ¬ ((o.numShards > 1 ∧ o.shardIndex ≥ o.numShards) ∨ ∃ s, o.sampleRatio = some s ∧ ¬ GoodRatio s ∧ ¬ NotANumber s) := by
      intro h
      have := (hx .invalidArgument).2 ⟨rfl, h⟩
      rw [hm] at this; cases this
    simp only [h0, or_false]
    by_cases hb : o.batchSize = 0
    · simp only [hb, if_true, Except.error.injEq, and_true]; exact eq_comm
    · simp [hb]

/-! ## NaN -/

theorem sampledF_nan {α : Type} (q : Single) (h : q.isNan = true) (inner : Machine α) (x : α) (xs : List α)
    (hx : inner.Yields inner.init (x :: xs) (.ok none)) :
    ∃ w, ((sampledF q inner).read (sampledF q inner).init).1 = .ub w := by
  obtain ⟨s', h1, -⟩ := Machine.sampleLoop_yields 100 ([] : List (Option α)) hx
  refine ⟨"conversion of NaN to an integer", ?_⟩
  simp [sampledF, sampledReadF, sampledFillF, h1, Single.keep, h]

theorem base_ub {α : Type} {m : Machine α} (h : ∃ w, (m.read m.init).1 = .ub w) : ∃ w, (m.base.read m.base.init).1 = .ub w := by
  obtain ⟨w, h⟩ := h
  exact ⟨w, h⟩

theorem shuffled_ub {α : Type} (R : Rng) (p : ShuffleParams) {m : Machine α} (h : ∃ w, (m.read m.init).1 = .ub w) :
    ∃ w, ((shuffled R p m).read (shuffled R p m).init).1 = .ub w := by
  obtain ⟨w, h⟩ := h
  rcases hm : m.read m.init with ⟨o, i⟩
  rw [hm] at h
  cases h
  refine ⟨w, ?_⟩
  show (shuffledRead R p m ⟨m.init, [], true, R.seed p.seed⟩).1 = _
  unfold shuffledRead
  by_cases h1 : p.effWindow = 1
  · simp only [h1, if_true, hm]
  · simp only [h1, if_false]
    have h2 : ∃ k, p.effWindow - ([] : List α).length = k + 1 := by
      refine ⟨p.effWindow - 1, ?_⟩
      have : 0 < p.effWindow := by
        unfold ShuffleParams.effWindow
        split
        · decide
        · omega
      simp; omega
    obtain ⟨k, hk⟩ := h2
    rw [hk]
    simp [shuffleFill, hm]

theorem batched_ub {α : Type} (b : Nat) (hb : 0 < b) (l : LastHandling) {m : Machine α} (h : ∃ w, (m.read m.init).1 = .ub w) :
    ∃ w, ((batched b l m).read (batched b l m).init).1 = .ub w := by
  obtain ⟨w, h⟩ := h
  rcases hm : m.read m.init with ⟨o, i⟩
  rw [hm] at h
  cases h
  cases b with
  | zero => omega
  | succ b => exact ⟨w, by simp [batched, batchRead, batchLoop, hm]⟩

theorem makeBatch_nan {α : Type} (R : Rng) (o : RawOptions) (core r0 : Machine α) (q : Single) (hq : o.sampleRatio = some q) (h : q.isNan = true)
    (h0 : makeInstanceReader R { o.options with sampleRatio := none, shuffle := none } core = some r0) (hb : 0 < o.batchSize) (x : α) (xs : List α)
    (hx : r0.Yields r0.init (x :: xs) (.ok none)) (m : Machine (Batch α)) (hm : makeBatchReader R o core = .ok m) :
    ∃ w, (m.read m.init).1 = .ub w := by
  have hs : q.refused = false := by
    simp [Single.refused, Single.leZero, Single.geOne, h]
  have h1 := base_ub (sampledF_nan q h r0 x xs hx)
  unfold makeBatchReader makeRawReader at hm
  unfold makeInstanceReader RawOptions.options at h0
  have hb' : ¬ o.batchSize = 0 := by omega
  by_cases hsh : o.numShards > 1 ∧ o.shardIndex ≥ o.numShards
  · simp [hsh] at h0
  · simp only [hsh, if_false, Option.some.injEq] at h0
    simp only [hsh, if_false, hq, hs, Bool.false_eq_true] at hm
    rw [h0] at hm
    cases hp : o.shuffle with
    | none =>
      simp only [hp, hb', if_false, Except.ok.injEq] at hm
      subst hm
      exact batched_ub _ hb _ h1
    | some p =>
      simp only [hp, hb', if_false, Except.ok.injEq] at hm
      subst hm
      exact batched_ub _ hb _ (base_ub (shuffled_ub R p h1))

end Mlio
