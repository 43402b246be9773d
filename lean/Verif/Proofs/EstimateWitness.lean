import Verif.Proofs.EstimateTexts
import Verif.Proofs.XxhashOnto

namespace Mlio
open Spec

/-- A hash with bucket `i` and its first one behind it at place `r`. -/
def hashCode (i r : Nat) : Nat := i * 2 ^ 16 + if r = 17 then 0 else 2 ^ (16 - r)

theorem hashCode_spec {i r : Nat} (h1 : 1 ≤ r) (h2 : r ≤ 17) : hashCode i r / 2 ^ 16 = i ∧ FirstOne 16 (hashCode i r) r := by
  unfold hashCode FirstOne
  by_cases h : r = 17
  · rw [if_pos h]
    exact ⟨by omega, .inl ⟨by omega, h⟩⟩
  · have h3 : 2 ^ (16 - r) ≤ 2 ^ 15 := Nat.pow_le_pow_right (by omega) (by omega)
    have h4 : 0 < 2 ^ (16 - r) := Nat.two_pow_pos _
    have h5 : 2 ^ (16 - r + 1) = 2 * 2 ^ (16 - r) := by rw [Nat.pow_succ, Nat.mul_comm]
    rw [if_neg h]
    simp only [show (32 - 16 : Nat) = 16 from rfl]
    rw [h5]
    generalize 2 ^ (16 - r) = w at h3 h4 ⊢
    omega

noncomputable def textFor (i r : Nat) : Bytes := Classical.choose (hash_onto (UInt32.ofNat (hashCode i r)))

theorem textFor_hash {i r : Nat} (hi : i < 65536) (h1 : 1 ≤ r) : (XXH32.hash 0 (textFor i r)).toNat = hashCode i r := by
  unfold textFor
  rw [(Classical.choose_spec (hash_onto (UInt32.ofNat (hashCode i r)))).2]
  have : hashCode i r < 2 ^ 32 := by
    unfold hashCode
    have h3 : 2 ^ (16 - r) ≤ 2 ^ 15 := Nat.pow_le_pow_right (by omega) (by omega)
    split <;> omega
  rw [UInt32.toNat_ofNat']
  exact Nat.mod_eq_of_lt this

/-- Texts that give the registers `l`. -/
structure Makes (texts : List Bytes) (l : List Nat) : Prop where
  below : ∀ t ∈ texts, ∃ i r, i < 65536 ∧ 1 ≤ r ∧ r ≤ l.getD i 0 ∧ t = textFor i r
  all : ∀ i, i < 65536 → l.getD i 0 ≠ 0 → textFor i (l.getD i 0) ∈ texts

theorem makes_sketch {texts : List Bytes} {l : List Nat} (hl : l.length = 65536) (h17 : ∀ i, l.getD i 0 ≤ 17) (hm : Makes texts l) :
    HoldsTexts texts ⟨16, l⟩ := by
  refine ⟨rfl, hl, ?_, ?_⟩
  · rintro h ⟨t, ht, rfl⟩
    obtain ⟨i, r, hi, h1, hr, rfl⟩ := hm.below t ht
    rw [textFor_hash hi h1]
    have hs := hashCode_spec (i := i) h1 (Nat.le_trans hr (h17 i))
    have hb : bucket 16 (hashCode i r) = i := hs.1
    exact ⟨r, hs.2, by rw [hb]; exact hr⟩
  · intro i hi
    by_cases h0 : l.getD i 0 = 0
    · exact .inl h0
    · right
      have h1 : 1 ≤ l.getD i 0 := by omega
      have hs := hashCode_spec (i := i) h1 (h17 i)
      refine ⟨_, ⟨_, hm.all i hi h0, rfl⟩, ?_⟩
      rw [textFor_hash hi h1]
      exact hs

/-- The texts for registers. -/
noncomputable def textsFor (l : List Nat) : List Bytes :=
  ((List.range l.length).filter (fun i => l.getD i 0 ≠ 0)).map (fun i => textFor i (l.getD i 0))

theorem textsFor_makes (l : List Nat) (hl : l.length = 65536) : Makes (textsFor l) l := by
  constructor
  · intro t ht
    obtain ⟨i, hi, rfl⟩ := List.mem_map.1 ht
    rw [List.mem_filter, List.mem_range] at hi
    have : l.getD i 0 ≠ 0 := by simpa using hi.2
    exact ⟨i, _, by omega, by omega, Nat.le_refl _, rfl⟩
  · intro i hi h0
    refine List.mem_map.2 ⟨i, ?_, rfl⟩
    rw [List.mem_filter, List.mem_range]
    exact ⟨by omega, by simpa using h0⟩

theorem holds_of_run {cfg : XxConfig} {builtin : Bool} {texts : List Bytes} {l : List Nat} (hl : l.length = 65536)
    (h17 : ∀ i, l.getD i 0 ≤ 17) (hm : Makes texts l) (hb : builtin = true → HashesEnd 16 texts) :
    ∃ s0, Hll.new 16 = .ok s0 ∧ s0.addTexts cfg builtin (texts.map (fun t => (0, t))) = .ok ⟨16, l⟩ := by
  have he : (texts.map (fun t => ((0 : Nat), t))).map Prod.snd = texts := by simp
  obtain ⟨s0, s, h0, h1, h2⟩ := C99_sketch_partial cfg builtin 16 (by unfold HllWidth; omega) (texts.map (fun t => (0, t)))
    (by rw [he]; exact hb)
  rw [he] at h2
  refine ⟨s0, h0, ?_⟩
  rw [h1, sketch_unique (by unfold HllWidth; omega) h2 (makes_sketch hl h17 hm)]

theorem makes_end {texts : List Bytes} {l : List Nat} (h16 : ∀ i, l.getD i 0 ≤ 16) (hm : Makes texts l) : HashesEnd 16 texts := by
  intro t ht
  obtain ⟨i, r, hi, h1, hr, rfl⟩ := hm.below t ht
  have hr' := Nat.le_trans hr (h16 i)
  rw [textFor_hash hi h1]
  rcases (hashCode_spec (i := i) h1 (by omega)).2 with ⟨_, h⟩ | ⟨_, _, h, _⟩
  · omega
  · have : 0 < 2 ^ (32 - 16 - r) := Nat.two_pow_pos _
    omega

/-- Registers before and after one more text. -/
def regsRest : List Nat := List.replicate 10093 1 ++ List.replicate 55441 2
def regsBefore : List Nat := 0 :: 1 :: regsRest
def regsAfter : List Nat := 0 :: 16 :: regsRest

theorem regsRest_length : regsRest.length = 65534 := by
  unfold regsRest
  rw [List.length_append, List.length_replicate, List.length_replicate]

theorem regsRest_le : ∀ i, regsRest.getD i 0 ≤ 16 := by
  intro i
  unfold regsRest
  rw [List.getD_eq_getElem?_getD]
  cases h : (List.replicate 10093 1 ++ List.replicate 55441 2)[i]? with
  | none => simp
  | some x =>
    have := List.mem_of_getElem? h
    rw [List.mem_append, List.mem_replicate, List.mem_replicate] at this
    rcases this with ⟨_, rfl⟩ | ⟨_, rfl⟩ <;> simp

theorem regsRest_sum : (regsRest.map (fun r => 1 / (2 ^ r : ℝ))).sum = 18906.75 := by
  unfold regsRest
  rw [List.map_append, List.map_replicate, List.map_replicate, List.sum_append, List.sum_replicate, List.sum_replicate, nsmul_eq_mul,
    nsmul_eq_mul]
  norm_num

theorem regsRest_zeros : regsRest.count 0 = 0 := by
  rw [List.count_eq_zero]
  unfold regsRest
  rw [List.mem_append, List.mem_replicate, List.mem_replicate]
  omega

theorem regsBefore_length : regsBefore.length = 65536 := by
  unfold regsBefore; rw [List.length_cons, List.length_cons, regsRest_length]

theorem regsAfter_length : regsAfter.length = 65536 := by
  unfold regsAfter; rw [List.length_cons, List.length_cons, regsRest_length]

theorem regsBefore_le (i : Nat) : regsBefore.getD i 0 ≤ 16 := by
  unfold regsBefore
  match i with
  | 0 => rw [List.getD_cons_zero]; omega
  | 1 => rw [List.getD_cons_succ, List.getD_cons_zero]; omega
  | i + 2 => rw [List.getD_cons_succ, List.getD_cons_succ]; exact regsRest_le i

theorem regsAfter_le (i : Nat) : regsAfter.getD i 0 ≤ 16 := by
  unfold regsAfter
  match i with
  | 0 => rw [List.getD_cons_zero]; omega
  | 1 => rw [List.getD_cons_succ, List.getD_cons_zero]
  | i + 2 => rw [List.getD_cons_succ, List.getD_cons_succ]; exact regsRest_le i

theorem regsBefore_makes : Makes (textsFor regsBefore) regsBefore := textsFor_makes _ regsBefore_length

theorem regsAfter_makes : Makes (textsFor regsBefore ++ [textFor 1 16]) regsAfter := by
  have hle : ∀ i, regsBefore.getD i 0 ≤ regsAfter.getD i 0 := by
    intro i
    match i with
    | 0 => exact Nat.le_refl _
    | 1 => show (1 : Nat) ≤ 16; omega
    | i + 2 => exact Nat.le_refl _
  constructor
  · intro t ht
    rcases List.mem_append.1 ht with h | h
    · obtain ⟨i, r, hi, h1, hr, e⟩ := regsBefore_makes.below t h
      exact ⟨i, r, hi, h1, Nat.le_trans hr (hle i), e⟩
    · rw [List.mem_singleton] at h
      exact ⟨1, 16, by omega, by omega, Nat.le_refl _, h⟩
  · intro i hi h0
    match i with
    | 0 => exact absurd rfl h0
    | 1 => exact List.mem_append_right _ (List.mem_singleton.2 rfl)
    | i + 2 => exact List.mem_append_left _ (regsBefore_makes.all (i + 2) hi h0)

theorem castRound_bounds {x : ℝ} {n : Nat} (h0 : 0 ≤ x) (h : castRound (some x) = .ok n) : x - 1 / 2 < n ∧ n ≤ x + 1 / 2 := by
  simp only [castRound] at h
  split at h
  · cases h
  split at h
  · cases h
  cases h
  have h1 := Nat.floor_le (by linarith : 0 ≤ x + 1 / 2)
  have h2 := Nat.lt_floor_add_one (x + 1 / 2)
  exact ⟨by linarith, h1⟩

theorem count17_zero {l : List Nat} (h : ∀ i, l.getD i 0 ≤ 16) : l.count 17 ≤ 32768 := by
  rw [List.count_eq_zero_of_not_mem]
  · omega
  · intro hm
    obtain ⟨i, hi, he⟩ := List.mem_iff_getElem.1 hm
    have := h i
    rw [List.getD_eq_getElem?_getD, List.getElem?_eq_getElem hi, Option.getD_some, he] at this
    omega

theorem mem_le {l : List Nat} (h : ∀ i, l.getD i 0 ≤ 16) : ∀ r ∈ l, r ≤ 17 := by
  intro r hr
  obtain ⟨i, hi, he⟩ := List.mem_iff_getElem.1 hr
  have := h i
  rw [List.getD_eq_getElem?_getD, List.getElem?_eq_getElem hi, Option.getD_some, he] at this
  omega

theorem card_before : ∃ n, (Hll.mk 16 regsBefore).cardinality = .ok n ∧ 700000 < n := by
  obtain ⟨n, _, hn⟩ := cardinality_defined ⟨16, regsBefore⟩ regsBefore_length (mem_le regsBefore_le) (count17_zero regsBefore_le)
  refine ⟨n, hn, ?_⟩
  have hsum : (Hll.mk 16 regsBefore).sum = 18908.25 := by
    unfold Hll.sum regsBefore
    rw [List.map_cons, List.map_cons, List.sum_cons, List.sum_cons, regsRest_sum]
    norm_num
  have hz : (Hll.mk 16 regsBefore).zeros = 1 := by
    unfold Hll.zeros regsBefore
    simp only
    rw [List.count_cons, List.count_cons, regsRest_zeros]
    rfl
  have hraw : (Hll.mk 16 regsBefore).raw ≤ 2.5 * (Hll.mk 16 regsBefore).regs.length := by
    unfold Hll.raw
    rw [hsum]
    simp only
    rw [regsBefore_length, hllAlpha_16]
    norm_num
  unfold Hll.cardinality Hll.estimate at hn
  rw [if_pos hraw, if_pos (by rw [hz]; decide), hz] at hn
  simp only at hn
  rw [regsBefore_length, logOf, if_pos (by norm_num), Option.map_some] at hn
  have h2 := Real.log_two_gt_d9
  have h3 : Real.log ((65536 : Nat) / (1 : Nat)) = 16 * Real.log 2 := by
    rw [show (((65536 : Nat) : ℝ) / (1 : Nat)) = 2 ^ 16 by norm_num, Real.log_pow]
    norm_num
  rw [h3] at hn
  have h4 := (castRound_bounds (by push_cast; linarith) hn).1
  push_cast at h4
  have : (700000 : ℝ) < n := by linarith
  exact_mod_cast this

theorem card_after : ∃ n, (Hll.mk 16 regsAfter).cardinality = .ok n ∧ n < 170000 := by
  obtain ⟨n, _, hn⟩ := cardinality_defined ⟨16, regsAfter⟩ regsAfter_length (mem_le regsAfter_le) (count17_zero regsAfter_le)
  refine ⟨n, hn, ?_⟩
  have hsum : (Hll.mk 16 regsAfter).sum = 18907.75 + 1 / 65536 := by
    unfold Hll.sum regsAfter
    rw [List.map_cons, List.map_cons, List.sum_cons, List.sum_cons, regsRest_sum]
    norm_num
  have hraw : ¬ (Hll.mk 16 regsAfter).raw ≤ 2.5 * (Hll.mk 16 regsAfter).regs.length := by
    unfold Hll.raw
    rw [hsum]
    simp only
    rw [regsAfter_length, hllAlpha_16]
    norm_num
  have hraw2 : (Hll.mk 16 regsAfter).raw ≤ 169000 := by
    unfold Hll.raw
    rw [hsum]
    simp only
    rw [regsAfter_length, hllAlpha_16]
    norm_num
  have hraw0 : 0 ≤ (Hll.mk 16 regsAfter).raw := by
    rw [regsAfter_length] at hraw
    push_cast at hraw
    linarith
  unfold Hll.cardinality Hll.estimate at hn
  rw [if_neg hraw, if_neg (by norm_num; linarith)] at hn
  have h4 := (castRound_bounds hraw0 hn).2
  have : (n : ℝ) < 170000 := by linarith
  exact_mod_cast this

end Mlio
