import Verif.Proofs.ReaderOptions
import Verif.Props.Instances

/-! # C104: options that make no sense are refused when the reader is made, the others work -/

namespace Mlio
open Spec

/-- **C104**, options that make sense are accepted: a reader is made. -/
theorem C104_accepted {α : Type} (R : Rng) (o : RawOptions) (core : Machine α) (h : GoodOptions o) :
    ∃ m, makeBatchReader R o core = .ok m := by
  cases hm : makeBatchReader R o core with
  | ok m => exact ⟨m, rfl⟩
  | error e =>
    exfalso
    obtain ⟨-, h1 | h1 | ⟨s, h1, h2, -⟩⟩ := (makeBatch_error R o core e).1 hm
    · have := h.batch; omega
    · have := h.shard; omega
    · exact h2 (h.ratio s h1)

/-- **C104**, partial: options that make no sense are refused with `std::invalid_argument`.

Missing: a sample ratio that is not a number and a shard index without shards, see `C104_nan_violated` and `C104_shard_violated`. -/
theorem C104_refused_partial {α : Type} (R : Rng) (o : RawOptions) (core : Machine α) (h : ¬ GoodOptions o)
    (hn : ∀ s, o.sampleRatio = some s → ¬ NotANumber s) (hs : o.numShards ≤ 1 → o.shardIndex = 0) :
    makeBatchReader R o core = .error .invalidArgument := by
  rw [makeBatch_error]
  refine ⟨rfl, Classical.byContradiction fun hc => h ⟨?_, ?_, ?_⟩⟩
  · omega
  · omega
  · intro s h1
    exact Classical.byContradiction fun h2 => hc (.inr (.inr ⟨s, h1, h2, hn s h1⟩))

/-- What is refused, exactly. -/
theorem C104_refused_iff {α : Type} (R : Rng) (o : RawOptions) (core : Machine α) (e : Err) :
    makeBatchReader R o core = .error e ↔ e = .invalidArgument ∧ (o.batchSize = 0 ∨ (1 < o.numShards ∧ o.numShards ≤ o.shardIndex) ∨
      ∃ s, o.sampleRatio = some s ∧ ¬ GoodRatio s ∧ ¬ NotANumber s) := makeBatch_error R o core e

/-- **C104**, partial: with options that make sense reading a dataset without errors gives batches to its end, and never an error or undefined behaviour; without shuffling
these are the batches of the instances that C17, C18 and C19 name, where the ratio is the number that was passed.

Missing: `pad_warn`, see C24. -/
theorem C104_works_partial {α : Type} (R : Rng) (hR : R.Lawful) (o : RawOptions) (core : Machine α) (h : GoodOptions o) (hl : o.last ≠ .padWarn)
    (xs : List α) (hx : core.Yields core.init xs (.ok none)) (hlen : xs.length < 2 ^ 64 - 1) (m : Machine (Batch α))
    (hm : makeBatchReader R o core = .ok m) :
    ∃ zs : List α, m.Yields m.init (batches o.batchSize o.last zs) (.ok none) ∧
      let ys := range o.toSkip o.toRead xs
      let ys := if o.numShards > 1 then shard o.numShards o.shardIndex ys else ys
      let ys := match o.sampleRatio with
        | some s => sample s.ratio.keep ys
        | none => ys
      match o.shuffle with
      | none => zs = ys
      | some p => zs.Perm ys ∧ WindowShuffle (if p.window = 0 then ys.length else p.window) ys zs := by
  unfold makeBatchReader at hm
  cases hr : makeRawReader R o core with
  | error e => rw [hr] at hm; cases hm
  | ok r =>
    have hb : ¬ o.batchSize = 0 := by have := h.batch; omega
    rw [hr] at hm
    simp only [hb, if_false, Except.ok.injEq] at hm
    subst hm
    obtain ⟨ys, h1, h2⟩ := (C23_options_compose R hR o.options core xs hx hlen).2 r ((makeRaw_eq R o core h.ratio r).1 hr)
    refine ⟨ys, C24_batches_partial r ys h1 o.batchSize h.batch o.last hl, ?_⟩
    have e1 : selected o.options xs =
        (match o.sampleRatio with
        | some s => sample s.ratio.keep (if o.numShards > 1 then shard o.numShards o.shardIndex (range o.toSkip o.toRead xs) else range o.toSkip o.toRead xs)
        | none => (if o.numShards > 1 then shard o.numShards o.shardIndex (range o.toSkip o.toRead xs) else range o.toSkip o.toRead xs)) := by
      unfold selected RawOptions.options
      cases o.sampleRatio <;> rfl
    rw [e1] at h2
    exact h2

/-- The fraction in `C104_works_partial` is the number that was passed. -/
theorem C104_ratio (s : Single) (h : GoodRatio s) :
    singleValue s = some ((s.ratio.mant : Rat) / ((2 ^ s.ratio.exp : Nat) : Rat)) ∧ s.ratio.mant < 2 ^ 24 := by
  have hg := (good_iff_fract s).1 h
  refine ⟨?_, ?_⟩
  · rw [singleValue_eq s hg.1, hg.2.1]
    simp only [Bool.false_eq_true, if_false, Option.some.injEq]
    have hd : (0 : Rat) < (s.fract.2 : Rat) := by exact_mod_cast fract_den s
    have he : (0 : Rat) < ((2 ^ s.ratio.exp : Nat) : Rat) := by exact_mod_cast Nat.pow_pos (by decide)
    have h1 : (s.ratio.mant : Rat) * (s.fract.2 : Rat) = (s.fract.1 : Rat) * ((2 ^ s.ratio.exp : Nat) : Rat) := by
      exact_mod_cast (ratio_value h).2
    have hd' : (s.fract.2 : Rat) ≠ 0 := fun hz => by rw [hz] at hd; exact absurd hd (by decide)
    have he' : ((2 ^ s.ratio.exp : Nat) : Rat) ≠ 0 := fun hz => by rw [hz] at he; exact absurd he (by decide)
    rw [← Rat.mul_div_cancel (a := (s.fract.1 : Rat)) he', ← h1, Rat.div_def, Rat.div_def, Rat.div_def, Rat.mul_assoc, Rat.mul_assoc,
      Rat.mul_comm _ ((s.fract.2 : Rat)⁻¹), ← Rat.mul_assoc (s.fract.2 : Rat), Rat.mul_inv_cancel _ hd', Rat.one_mul]
  · have := s.frac.isLt
    unfold Single.ratio
    split
    · show s.frac.val < _; omega
    · show 2 ^ 23 + s.frac.val < _; omega

/-! ## Violations -/

/-- **C104** is violated by a sample ratio that is not a number: it is accepted, whatever the other options are, … -/
theorem C104_nan_violated {α : Type} (R : Rng) (o : RawOptions) (core : Machine α) (s : Single) (h : NotANumber s)
    (hb : 0 < o.batchSize) (hs : o.shardIndex < o.numShards ∨ o.numShards ≤ 1) :
    ¬ GoodRatio s ∧ ∃ m, makeBatchReader R { o with sampleRatio := some s } core = .ok m := by
  refine ⟨fun hg => ?_, ?_⟩
  · have := good_not_nan hg
    rw [(isNan_iff s).2 h] at this; cases this
  · cases hm : makeBatchReader R { o with sampleRatio := some s } core with
    | ok m => exact ⟨m, rfl⟩
    | error e =>
      exfalso
      obtain ⟨-, h1 | h1 | ⟨s', h1, -, h2⟩⟩ := (makeBatch_error R _ core e).1 hm
      · have h1 : o.batchSize = 0 := h1
        omega
      · have h1 : o.numShards > 1 ∧ o.shardIndex ≥ o.numShards := h1
        omega
      · cases h1; exact h2 h

/-- … and reading the first batch then has undefined behaviour, if the other options select any instance of the dataset. -/
theorem C104_nan_undefined_violated {α : Type} (R : Rng) (hR : R.Lawful) (o : RawOptions) (core : Machine α) (s : Single) (ho : o.sampleRatio = some s)
    (h : NotANumber s) (xs : List α) (hx : core.Yields core.init xs (.ok none)) (hlen : xs.length < 2 ^ 64 - 1)
    (hne : (if o.numShards > 1 then shard o.numShards o.shardIndex (range o.toSkip o.toRead xs) else range o.toSkip o.toRead xs) ≠ [])
    (m : Machine (Batch α)) (hm : makeBatchReader R o core = .ok m) :
    ∃ w, (m.read m.init).1 = .ub w := by
  have hc := C23_options_compose R hR { o.options with sampleRatio := none, shuffle := none } core xs hx hlen
  have hok : ¬ (o.batchSize = 0 ∨ (o.numShards > 1 ∧ o.shardIndex ≥ o.numShards)) := by
    intro hb
    have := (makeBatch_error R o core .invalidArgument).2 ⟨rfl, by rcases hb with h1 | h1; exact .inl h1; exact .inr (.inl h1)⟩
    rw [hm] at this; cases this
  cases h0 : makeInstanceReader R { o.options with sampleRatio := none, shuffle := none } core with
  | none =>
    exfalso
    rcases hc.1.1 h0 with h1 | ⟨q, h1, -⟩
    · exact hok (.inr h1)
    · cases h1
  | some r0 =>
    obtain ⟨ys, h1, h2⟩ := hc.2 r0 h0
    have h2 : ys = (if o.numShards > 1 then shard o.numShards o.shardIndex (range o.toSkip o.toRead xs) else range o.toSkip o.toRead xs) := h2
    rw [← h2] at hne
    obtain ⟨y, ys', rfl⟩ := List.exists_cons_of_ne_nil hne
    exact makeBatch_nan R o core r0 s ho ((isNan_iff s).2 h) h0 (by omega) y ys' h1 m hm

/-- The `float` nearest to 0.3, and a NaN. -/
def threeTenths : Single := ⟨false, 125, 1677722⟩
def quietNan : Single := ⟨false, 255, 4194304⟩

-- The hypotheses are met: 30 % of the second of two shards of 250 instances; the same options with NaN.
example : GoodOptions { batchSize := 10, numShards := 2, shardIndex := 1, sampleRatio := some threeTenths } := by
  refine ⟨by decide, .inl (by decide), fun s h => ?_⟩
  cases h
  exact (good_iff _).2 (by decide)

example : threeTenths.ratio = ⟨10066330, 25⟩ ∧ threeTenths.ratio.keep 100 = 30 ∧ threeTenths.ratio.keep 25 = 7 := by decide

example : NotANumber quietNan ∧ (shard 2 1 (range 0 none (List.range 250))) ≠ [] ∧
    ∃ m, makeBatchReader trivialRng { batchSize := 10, numShards := 2, shardIndex := 1, sampleRatio := some quietNan } (listMachine (List.range 250)) =
      .ok m ∧ (m.read m.init).1 = .ub "conversion of NaN to an integer" :=
  ⟨by unfold NotANumber; decide, by decide +kernel, _, rfl, by decide +kernel⟩

-- Ratios that are refused: zero, minus zero, one, infinity, a negative number.
example : (makeBatchReader trivialRng { batchSize := 10, sampleRatio := some ⟨true, 0, 0⟩ } (listMachine [1]) matches .error .invalidArgument) ∧
    (makeBatchReader trivialRng { batchSize := 10, sampleRatio := some ⟨false, 127, 0⟩ } (listMachine [1]) matches .error .invalidArgument) ∧
    (makeBatchReader trivialRng { batchSize := 10, sampleRatio := some ⟨false, 255, 0⟩ } (listMachine [1]) matches .error .invalidArgument) ∧
    (makeBatchReader trivialRng { batchSize := 10, sampleRatio := some ⟨true, 125, 7⟩ } (listMachine [1]) matches .error .invalidArgument) := by decide

/-- **C104** is violated by a shard index without shards: any index is accepted and ignored. -/
theorem C104_shard_violated {α : Type} (R : Rng) (o : RawOptions) (core : Machine α) (hs : o.numShards ≤ 1) (k : Nat) :
    makeBatchReader R { o with shardIndex := k } core = makeBatchReader R o core ∧
    (0 < k → ¬ GoodOptions { o with shardIndex := k }) := by
  have h1 : ¬ o.numShards > 1 := by omega
  refine ⟨?_, fun hk hg => ?_⟩
  · unfold makeBatchReader makeRawReader
    simp only [h1, false_and, if_false]
  · have : k < o.numShards ∨ (k = 0 ∧ o.numShards = 0) := hg.shard
    omega

end Mlio
