import Verif.Model.Estimate
import Verif.Spec.Estimate
import Mathlib.Analysis.SpecialFunctions.Arsinh
import Mathlib.Analysis.Complex.ExponentialBounds
import Mathlib.Tactic.Linarith
import Mathlib.Tactic.NormNum
import Mathlib.Tactic.Positivity
import Mathlib.Tactic.FieldSimp
import Mathlib.Tactic.Ring

namespace Mlio
open Spec

theorem hllAlpha_16 : hllAlpha 65536 = 0.7213 / (1 + 1.079 / 65536) := by
  unfold hllAlpha; norm_num

theorem hllAlpha_16_lt : hllAlpha 65536 < 0.7213 := by rw [hllAlpha_16]; norm_num
theorem hllAlpha_16_gt : 0.7212 < hllAlpha 65536 := by rw [hllAlpha_16]; norm_num

theorem regsSum_count (l : List Nat) : (l.count 0 : ℝ) ≤ (l.map (fun r => 1 / (2 ^ r : ℝ))).sum := by
  induction l with
  | nil => simp
  | cons a l ih =>
    rw [List.map_cons, List.sum_cons, List.count_cons]
    by_cases h : a = 0
    · subst h
      simp only [beq_self_eq_true, if_true, pow_zero]
      push_cast
      linarith
    · have : (0 : ℝ) ≤ 1 / 2 ^ a := by positivity
      simp only [beq_iff_eq, h, if_false]
      push_cast
      linarith

/-- Registers of which at most `q` are 17 and the others are smaller. -/
theorem regsSum_bound (l : List Nat) (h : ∀ r ∈ l, r ≤ 17) :
    2 * (l.length : ℝ) - l.count 17 ≤ 2 ^ 17 * (l.map (fun r => 1 / (2 ^ r : ℝ))).sum := by
  induction l with
  | nil => simp
  | cons a l ih =>
    have ih := ih (fun r hr => h r (List.mem_cons_of_mem _ hr))
    rw [List.map_cons, List.sum_cons, List.count_cons, List.length_cons]
    by_cases h17 : a = 17
    · subst h17
      simp only [beq_self_eq_true, if_true]
      push_cast
      linarith
    · have ha : a ≤ 16 := by have := h a List.mem_cons_self; omega
      have h1 : (2 : ℝ) ^ a ≤ 2 ^ 16 := pow_le_pow_right₀ (by norm_num) ha
      have : (1 : ℝ) / 2 ^ 16 ≤ 1 / 2 ^ a := one_div_le_one_div_of_le (by positivity) h1
      simp only [beq_iff_eq, h17, if_false]
      push_cast
      linarith

theorem regsSum_mono {l l' : List Nat} (h : List.Forall₂ (· ≤ ·) l l') :
    (l'.map (fun r => 1 / (2 ^ r : ℝ))).sum ≤ (l.map (fun r => 1 / (2 ^ r : ℝ))).sum := by
  induction h with
  | nil => simp
  | cons ha _ ih =>
    rw [List.map_cons, List.sum_cons, List.map_cons, List.sum_cons]
    have h1 : (2 : ℝ) ^ _ ≤ 2 ^ _ := pow_le_pow_right₀ (by norm_num) ha
    have := one_div_le_one_div_of_le (by positivity) h1
    linarith

theorem castRound_near {x : ℝ} {k : Nat} (h1 : (k : ℝ) ≤ x) (h2 : x < k + 1 / 2) (hk : k < 2 ^ 63) : castRound (some x) = .ok k := by
  have hk' : (k : ℝ) < 9223372036854775808 := by exact_mod_cast hk
  have h0 : (0 : ℝ) ≤ k := Nat.cast_nonneg k
  simp only [castRound]
  rw [if_neg (by linarith), if_neg (by norm_num; linarith)]
  congr 1
  rw [Nat.floor_eq_iff (by linarith)]
  constructor <;> linarith

/-- The logarithm of the share of registers that are hit. -/
theorem linear_bounds {k m : Nat} (hk : k * k + k < m) :
    (k : ℝ) ≤ m * Real.log (m / ((m - k : Nat) : ℝ)) ∧ m * Real.log (m / ((m - k : Nat) : ℝ)) < k + 1 / 2 := by
  have hkm : k < m := by nlinarith
  have hm : (0 : ℝ) < m := by exact_mod_cast (by omega : 0 < m)
  rw [Nat.cast_sub hkm.le]
  have hd : (0 : ℝ) < m - k := by have : (k : ℝ) < m := by exact_mod_cast hkm
                                  linarith
  have hx : (0 : ℝ) < m / (m - k) := by positivity
  have hk0 : (0 : ℝ) ≤ k := Nat.cast_nonneg k
  have h1 : (1 : ℝ) ≤ m / (m - k) := by rw [le_div_iff₀ hd]; linarith
  constructor
  · have := Real.one_sub_inv_le_log_of_pos hx
    rw [inv_div] at this
    have h2 : (m : ℝ) * (1 - (m - k) / m) = k := by field_simp; ring
    have h3 := mul_le_mul_of_nonneg_left this hm.le
    rwa [h2] at h3
  · have h3 : Real.log (m / (m - k)) ≤ Real.sinh (Real.log (m / (m - k))) := Real.self_le_sinh_iff.2 (Real.log_nonneg h1)
    rw [Real.sinh_log hx, inv_div] at h3
    have h4 : m * Real.log (m / (m - k)) ≤ m * ((m / (m - k) - (m - k) / m) / 2) := mul_le_mul_of_nonneg_left h3 hm.le
    have h5 : m * (((m : ℝ) / (m - k) - (m - k) / m) / 2) = k + k * k / (2 * (m - k)) := by field_simp; ring
    have h6 : (k : ℝ) * k / (2 * (m - k)) < 1 / 2 := by
      rw [div_lt_iff₀ (by linarith)]
      have : (k : ℝ) * k + k < m := by exact_mod_cast hk
      linarith
    linarith

theorem raw_few (s : Hll) (hl : s.regs.length = 65536) (k : Nat) (hk : k ≤ 255) (hz : s.zeros = 65536 - k) :
    s.raw ≤ 2.5 * s.regs.length := by
  have hz' := hz
  unfold Hll.zeros at hz'
  have hs : (65281 : ℝ) ≤ s.sum := by
    have h1 := regsSum_count s.regs
    rw [hz'] at h1
    have h2 : (65281 : ℝ) ≤ ((65536 - k : Nat) : ℝ) := by exact_mod_cast (by omega : 65281 ≤ 65536 - k)
    exact h2.trans h1
  unfold Hll.raw
  rw [hl, div_le_iff₀ (by linarith)]
  have := hllAlpha_16_lt
  push_cast
  nlinarith

/-- Few registers are hit. -/
theorem cardinality_few (s : Hll) (hl : s.regs.length = 65536) (k : Nat) (hk : k ≤ 255) (hz : s.zeros = 65536 - k) :
    s.cardinality = .ok k := by
  have hr := raw_few s hl k hk hz
  have hb := linear_bounds (k := k) (m := 65536) (by nlinarith)
  unfold Hll.cardinality Hll.estimate
  rw [if_pos hr, if_pos (by omega), hz, hl]
  have hpos : (0 : ℝ) < ((65536 : Nat) : ℝ) / ((65536 - k : Nat) : ℝ) := by
    have : (0 : ℝ) < ((65536 - k : Nat) : ℝ) := by exact_mod_cast (by omega : 0 < 65536 - k)
    positivity
  unfold logOf
  rw [if_pos hpos, Option.map_some]
  exact castRound_near hb.1 hb.2 (by omega)

theorem castRound_defined {x : ℝ} {n : Nat} (h1 : 0 ≤ x) (h2 : x < n) (hn : n < 2 ^ 63) : ∃ k, k ≤ n ∧ castRound (some x) = .ok k := by
  have hk' : (n : ℝ) < 9223372036854775808 := by exact_mod_cast hn
  refine ⟨⌊x + 1 / 2⌋₊, ?_, ?_⟩
  · apply Nat.le_of_lt_succ
    rw [Nat.floor_lt (by linarith)]
    push_cast
    linarith
  · simp only [castRound]
    rw [if_neg (by linarith), if_neg (by norm_num; linarith)]

theorem sum_ge (s : Hll) (hl : s.regs.length = 65536) (h17 : ∀ r ∈ s.regs, r ≤ 17) (hc : s.regs.count 17 ≤ 32768) : (0.75 : ℝ) ≤ s.sum := by
  have h1 := regsSum_bound s.regs h17
  rw [hl] at h1
  have h2 : ((s.regs.count 17 : Nat) : ℝ) ≤ 32768 := by exact_mod_cast hc
  unfold Hll.sum
  push_cast at h1
  linarith

theorem raw_le (s : Hll) (hl : s.regs.length = 65536) (hs : (0.75 : ℝ) ≤ s.sum) : s.raw ≤ 0.962 * 2 ^ 32 := by
  have ha := hllAlpha_16_lt
  unfold Hll.raw
  rw [hl, div_le_iff₀ (by linarith)]
  push_cast
  nlinarith

/-- If not too many registers have their largest value. -/
theorem cardinality_defined (s : Hll) (hl : s.regs.length = 65536) (h17 : ∀ r ∈ s.regs, r ≤ 17) (hc : s.regs.count 17 ≤ 32768) :
    ∃ k, k ≤ 2 ^ 37 ∧ s.cardinality = .ok k := by
  have hs := sum_ge s hl h17 hc
  have hg := hllAlpha_16_gt
  have hraw := raw_le s hl hs
  have hraw0 : 0 ≤ s.raw := by
    unfold Hll.raw
    rw [hl]
    have : 0 ≤ hllAlpha 65536 := by linarith
    have : 0 ≤ s.sum := by linarith
    positivity
  unfold Hll.cardinality Hll.estimate
  split
  · split
    · rename_i hz
      have hz1 : s.zeros ≤ 65536 := by unfold Hll.zeros; rw [← hl]; exact List.count_le_length
      have hz0 : (1 : ℝ) ≤ s.zeros := by exact_mod_cast Nat.one_le_iff_ne_zero.2 hz
      have hz1' : (s.zeros : ℝ) ≤ 65536 := by exact_mod_cast hz1
      have hx : (1 : ℝ) ≤ (65536 : Nat) / s.zeros := by rw [le_div_iff₀ (by linarith)]; push_cast; linarith
      have hx2 : (((65536 : Nat) : ℝ) / s.zeros) ≤ 65536 := by rw [div_le_iff₀ (by linarith)]; push_cast; linarith
      rw [hl, logOf, if_pos (by linarith), Option.map_some]
      have h1 := Real.log_nonneg hx
      have h2 := Real.log_le_sub_one_of_pos (by linarith : (0 : ℝ) < (65536 : Nat) / s.zeros)
      refine castRound_defined (by positivity) ?_ (by norm_num)
      push_cast at *
      nlinarith
    · exact castRound_defined hraw0 (by push_cast; linarith) (by norm_num)
  · split
    · have ht : (0.038 : ℝ) ≤ 1 - s.raw / 2 ^ 32 := by
        have : s.raw / 2 ^ 32 ≤ 0.962 := by rw [div_le_iff₀ (by positivity)]; exact hraw
        linarith
      have ht1 : 1 - s.raw / 2 ^ 32 ≤ 1 := by have : 0 ≤ s.raw / 2 ^ 32 := by positivity
                                              linarith
      rw [logOf, if_pos (by linarith), Option.map_some]
      have h1 := Real.log_nonpos (by linarith) ht1
      have h2 := Real.one_sub_inv_le_log_of_pos (by linarith : 0 < 1 - s.raw / 2 ^ 32)
      have h3 : (1 - s.raw / 2 ^ 32)⁻¹ ≤ 27 := by
        rw [inv_le_comm₀ (by linarith) (by norm_num)]
        norm_num at ht ⊢
        linarith
      refine castRound_defined (by nlinarith) ?_ (by norm_num)
      push_cast
      nlinarith
    · exact castRound_defined hraw0 (by push_cast; linarith) (by norm_num)

/-- All registers have their largest value. -/
theorem cardinality_nan (s : Hll) (h : s.regs = List.replicate 65536 17) : s.cardinality = .ub "not a number" := by
  have hsum : s.sum = 1 / 2 := by
    unfold Hll.sum
    rw [h, List.map_replicate, List.sum_replicate, nsmul_eq_mul]
    norm_num
  have hg := hllAlpha_16_gt
  have hraw : (2 : ℝ) ^ 32 < s.raw := by
    unfold Hll.raw
    rw [hsum, h, List.length_replicate]
    push_cast
    linarith
  unfold Hll.cardinality Hll.estimate
  rw [h, List.length_replicate, if_neg (by push_cast; linarith), if_pos (by linarith), logOf, if_neg]
  · rfl
  · rw [not_lt, sub_nonpos, le_div_iff₀ (by positivity)]
    linarith

/-- Registers that are larger give a larger first estimate. -/
theorem raw_mono {s t : Hll} (h : List.Forall₂ (· ≤ ·) s.regs t.regs) (h0 : 0 < t.sum) (ha : 0 ≤ hllAlpha s.regs.length) : s.raw ≤ t.raw := by
  unfold Hll.raw
  rw [← h.length_eq]
  exact div_le_div_of_nonneg_left (by positivity) h0 (regsSum_mono h)

theorem zeros_mono {l l' : List Nat} (h : List.Forall₂ (· ≤ ·) l l') : l'.count 0 ≤ l.count 0 := by
  induction h with
  | nil => simp
  | cons ha _ ih =>
    rename_i a b _ _ _
    rw [List.count_cons, List.count_cons]
    by_cases hb : b = 0
    · have : a = 0 := by omega
      simp [hb, this, ih]
    · simp only [beq_iff_eq, hb, if_false]
      omega

theorem castRound_mono {x y : ℝ} {n n' : Nat} (h : x ≤ y) (h1 : castRound (some x) = .ok n) (h2 : castRound (some y) = .ok n') : n ≤ n' := by
  simp only [castRound] at h1 h2
  split at h1
  · cases h1
  split at h1
  · cases h1
  split at h2
  · cases h2
  split at h2
  · cases h2
  cases h1
  cases h2
  exact Nat.floor_le_floor (by linarith)

theorem countsEmpty_iff (s : Hll) (hl : s.regs.length = 65536) : CountsEmpty s ↔ s.zeros ≠ 0 ∧ s.raw ≤ 2.5 * s.regs.length := by
  unfold CountsEmpty Hll.zeros Hll.raw Hll.sum
  have h1 : (fun r : Nat => (1 / 2 : ℝ) ^ r) = (fun r => 1 / (2 ^ r : ℝ)) := by
    funext r
    rw [div_pow, one_pow]
  rw [h1, hl, hllAlpha_16, ← Nat.pos_iff_ne_zero, List.count_pos_iff]
  push_cast
  rw [pow_two, mul_assoc]

/-- The estimate that is corrected is not smaller. -/
theorem corrected_ge {x : ℝ} (h : x < 2 ^ 32) : x ≤ -2 ^ 32 * Real.log (1 - x / 2 ^ 32) := by
  have ht : 0 < 1 - x / 2 ^ 32 := by
    have : x / 2 ^ 32 < 1 := by rw [div_lt_one (by positivity)]; exact h
    linarith
  have h1 := Real.log_le_sub_one_of_pos ht
  have h2 : x = 2 ^ 32 * (x / 2 ^ 32) := by field_simp
  nlinarith

theorem corrected_mono {x y : ℝ} (hxy : x ≤ y) (h : y < 2 ^ 32) :
    -2 ^ 32 * Real.log (1 - x / 2 ^ 32) ≤ -2 ^ 32 * Real.log (1 - y / 2 ^ 32) := by
  have ht : 0 < 1 - y / 2 ^ 32 := by
    have : y / 2 ^ 32 < 1 := by rw [div_lt_one (by positivity)]; exact h
    linarith
  have h1 : 1 - y / 2 ^ 32 ≤ 1 - x / 2 ^ 32 := by
    have : x / 2 ^ 32 ≤ y / 2 ^ 32 := div_le_div_of_nonneg_right hxy (by positivity)
    linarith
  have h2 := Real.log_le_log ht h1
  nlinarith

/-- Without counting empty buckets the estimate grows with the registers. -/
theorem cardinality_mono {s t : Hll} (hl : s.regs.length = 65536) (h : List.Forall₂ (· ≤ ·) s.regs t.regs)
    (hc : CountsEmpty s → CountsEmpty t) (h32 : t.raw < 2 ^ 32) (h0 : 0 < t.sum) {n n' : Nat}
    (hn : s.cardinality = .ok n) (hn' : t.cardinality = .ok n') : n ≤ n' := by
  have hl' : t.regs.length = 65536 := by rw [← h.length_eq]; exact hl
  have hraw := raw_mono h h0 (by rw [hl]; have := hllAlpha_16_gt; linarith)
  have hz : t.zeros ≤ s.zeros := zeros_mono h
  rw [countsEmpty_iff s hl, countsEmpty_iff t hl'] at hc
  unfold Hll.cardinality at hn hn'
  have hpos : ∀ x : ℝ, x < 2 ^ 32 → 0 < 1 - x / 2 ^ 32 := by
    intro x hx
    have : x / 2 ^ 32 < 1 := by rw [div_lt_one (by positivity)]; exact hx
    linarith
  have hge : ¬ (t.zeros ≠ 0 ∧ t.raw ≤ 2.5 * t.regs.length) → ∃ y, t.estimate = some y ∧ t.raw ≤ y := by
    intro hne
    unfold Hll.estimate
    split
    · rename_i h1
      rw [if_neg (fun h2 => hne ⟨h2, h1⟩)]
      exact ⟨_, rfl, le_refl _⟩
    · split
      · rw [logOf, if_pos (hpos _ h32), Option.map_some]
        exact ⟨_, rfl, corrected_ge h32⟩
      · exact ⟨_, rfl, le_refl _⟩
  by_cases hce : s.zeros ≠ 0 ∧ s.raw ≤ 2.5 * s.regs.length
  · have hct := hc hce
    unfold Hll.estimate at hn hn'
    rw [if_pos hce.2, if_pos hce.1, hl, logOf] at hn
    rw [if_pos hct.2, if_pos hct.1, hl', logOf] at hn'
    have hzt : (0 : ℝ) < t.zeros := by exact_mod_cast Nat.pos_of_ne_zero hct.1
    have hzs : (0 : ℝ) < s.zeros := by exact_mod_cast Nat.pos_of_ne_zero hce.1
    have hzz : (t.zeros : ℝ) ≤ s.zeros := by exact_mod_cast hz
    rw [if_pos (by positivity), Option.map_some] at hn hn'
    refine castRound_mono ?_ hn hn'
    refine mul_le_mul_of_nonneg_left (Real.log_le_log (by positivity) ?_) (by positivity)
    exact div_le_div_of_nonneg_left (by positivity) hzt hzz
  · by_cases hs1 : s.raw ≤ 2.5 * s.regs.length
    · have hz0 : s.zeros = 0 := by by_contra hh; exact hce ⟨hh, hs1⟩
      have hzt : t.zeros = 0 := by omega
      obtain ⟨y, hy, hy'⟩ := hge (fun hh => hh.1 hzt)
      rw [hy] at hn'
      unfold Hll.estimate at hn
      rw [if_pos hs1, if_neg (by simpa using hz0)] at hn
      exact castRound_mono (hraw.trans hy') hn hn'
    · have ht1 : ¬ t.raw ≤ 2.5 * t.regs.length := by
        rw [hl]  at hs1
        rw [hl']
        intro hh
        exact hs1 (hraw.trans hh)
      by_cases hs2 : s.raw > 1 / 30 * 2 ^ 32
      · unfold Hll.estimate at hn hn'
        rw [if_neg hs1, if_pos hs2, logOf, if_pos (hpos _ (lt_of_le_of_lt hraw h32)), Option.map_some] at hn
        rw [if_neg ht1, if_pos (lt_of_lt_of_le hs2 hraw), logOf, if_pos (hpos _ h32), Option.map_some] at hn'
        exact castRound_mono (corrected_mono hraw h32) hn hn'
      · obtain ⟨y, hy, hy'⟩ := hge (fun hh => ht1 hh.2)
        rw [hy] at hn'
        unfold Hll.estimate at hn
        rw [if_neg hs1, if_neg hs2] at hn
        exact castRound_mono (hraw.trans hy') hn hn'

theorem countsEmpty_few (s : Hll) (hl : s.regs.length = 65536) (k : Nat) (hk : k ≤ 255) (hz : s.zeros = 65536 - k) : CountsEmpty s :=
  (countsEmpty_iff s hl).2 ⟨by omega, raw_few s hl k hk hz⟩

end Mlio
