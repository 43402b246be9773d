import Verif.Proofs.EstimateWitness

/-! # C108: the estimated number of distinct texts -/

namespace Mlio
open Spec

/-- Adding texts to a new estimator of the width that `ColumnAnalysis` uses, `column_statistics.h` 34-42, then its estimate. -/
noncomputable def countTexts (cfg : XxConfig) (builtin : Bool) (texts : List (Nat × Bytes)) : Res Nat :=
  match Hll.new 16 with
  | .ok s0 => match s0.addTexts cfg builtin texts with
    | .ok s => s.cardinality
    | .err e => .err e
    | .ub w => .ub w
  | .err e => .err e
  | .ub w => .ub w

theorem countTexts_eq (cfg : XxConfig) (builtin : Bool) (texts : List (Nat × Bytes))
    (hh : builtin = true → HashesEnd 16 (texts.map Prod.snd)) :
    ∃ s, HoldsTexts (texts.map Prod.snd) s ∧ countTexts cfg builtin texts = s.cardinality := by
  obtain ⟨s0, s, h0, h1, h2⟩ := C99_sketch_partial cfg builtin 16 (by unfold HllWidth; omega) texts hh
  exact ⟨s, h2, by simp only [countTexts, h0, h1]⟩

/-- **C108**, few texts: if the texts of a column are in at most 255 different buckets, the estimate is the number of these buckets, exactly. -/
theorem C108_few_partial (cfg : XxConfig) (builtin : Bool) (texts : List (Nat × Bytes)) (hh : builtin = true → HashesEnd 16 (texts.map Prod.snd))
    (k : Nat) (hk : k ≤ 255) (hb : InBuckets (texts.map Prod.snd) k) : countTexts cfg builtin texts = .ok k := by
  obtain ⟨s, hs, he⟩ := countTexts_eq cfg builtin texts hh
  rw [he]
  exact cardinality_few s hs.size k hk (zeros_eq hs hb)

/-- Texts in different buckets: the estimate is the number of distinct texts, however often each of them occurs. -/
theorem C108_exact_partial (cfg : XxConfig) (builtin : Bool) (texts : List (Nat × Bytes)) (hh : builtin = true → HashesEnd 16 (texts.map Prod.snd))
    (k : Nat) (hk : k ≤ 255) (hd : Distinct (texts.map Prod.snd) k)
    (hb : ∀ t ∈ texts.map Prod.snd, ∀ t' ∈ texts.map Prod.snd, bucketOf t = bucketOf t' → t = t') : countTexts cfg builtin texts = .ok k := by
  obtain ⟨ds, h1, h2, h3⟩ := hd
  refine C108_few_partial cfg builtin texts hh k hk ⟨ds.map bucketOf, ?_, by simpa using h2, ?_⟩
  · rw [List.nodup_map_iff_inj_on h1]
    intro x hx y hy hxy
    exact hb x ((h3 x).1 hx) y ((h3 y).1 hy) hxy
  · intro i
    simp only [List.mem_map (l := ds), h3]

/-- At most 255 distinct texts: the estimate is not larger than their number. -/
theorem C108_few_le (cfg : XxConfig) (builtin : Bool) (texts : List (Nat × Bytes)) (hh : builtin = true → HashesEnd 16 (texts.map Prod.snd))
    (k : Nat) (hk : k ≤ 255) (hd : Distinct (texts.map Prod.snd) k) :
    ∃ n, n ≤ k ∧ (k ≠ 0 → n ≠ 0) ∧ countTexts cfg builtin texts = .ok n := by
  obtain ⟨ds, h1, h2, h3⟩ := hd
  have hm : ∀ i, i ∈ (ds.map bucketOf).dedup ↔ ∃ t ∈ texts.map Prod.snd, bucketOf t = i := by
    intro i
    rw [List.mem_dedup]
    simp only [List.mem_map (l := ds), h3]
  have hle : (ds.map bucketOf).dedup.length ≤ k := by
    rw [← h2, ← List.length_map (f := bucketOf) (as := ds)]
    exact (List.dedup_sublist _).length_le
  refine ⟨_, hle, ?_, C108_few_partial cfg builtin texts hh _ (hle.trans hk) ⟨_, List.nodup_dedup _, rfl, hm⟩⟩
  intro hk0 h0
  cases ds with
  | nil => exact hk0 h2.symm
  | cons d ds =>
    have : bucketOf d ∈ ((d :: ds).map bucketOf).dedup := by simp [List.mem_dedup]
    rw [List.length_eq_zero_iff.1 h0] at this
    simp at this

/-- No texts. -/
theorem C108_none (cfg : XxConfig) (builtin : Bool) : countTexts cfg builtin [] = .ok 0 :=
  C108_few_partial cfg builtin [] (fun _ t ht => by simp at ht) 0 (by omega) ⟨[], List.nodup_nil, rfl, by simp⟩

-- Three cells, two of them equal, in different buckets.
example : bucketOf "abc".toUTF8.toList = 0x32D1 ∧ bucketOf [] = 0x02CC := by decide +kernel

example : countTexts ⟨true, true, true⟩ true [(1000, "abc".toUTF8.toList), (7, []), (8, "abc".toUTF8.toList)] = .ok 2 := by
  have e1 : bucketOf "abc".toUTF8.toList = 0x32D1 := by decide +kernel
  have e2 : bucketOf [] = 0x02CC := by decide +kernel
  refine C108_few_partial _ _ _ (fun _ t ht => ?_) 2 (by omega) ⟨[0x32D1, 0x02CC], by decide, rfl, fun i => ?_⟩
  · simp only [List.map_cons, List.map_nil, List.mem_cons, List.not_mem_nil, or_false] at ht
    rcases ht with rfl | rfl | rfl <;> decide +kernel
  · simp only [List.map_cons, List.map_nil, List.mem_cons, List.not_mem_nil, or_false]
    constructor
    · rintro (rfl | rfl)
      · exact ⟨_, .inl rfl, e1⟩
      · exact ⟨_, .inr (.inl rfl), e2⟩
    · rintro ⟨t, rfl | rfl | rfl, rfl⟩
      · exact .inl e1
      · exact .inr e2
      · exact .inl e1

/-- **C108**, the estimate is a number: if at most 32768 distinct texts have hashes with zeros only behind the bucket. -/
theorem C108_defined_partial (cfg : XxConfig) (builtin : Bool) (texts : List (Nat × Bytes)) (hh : builtin = true → HashesEnd 16 (texts.map Prod.snd))
    (l : List Bytes) (hl : ∀ t ∈ texts.map Prod.snd, EndsInZeros t → t ∈ l) (hl2 : l.length ≤ 32768) :
    ∃ n, n ≤ 2 ^ 37 ∧ countTexts cfg builtin texts = .ok n := by
  obtain ⟨s, hs, he⟩ := countTexts_eq cfg builtin texts hh
  rw [he]
  exact cardinality_defined s hs.size (regs_le hs) ((count17_le hs l hl).trans hl2)

/-- In the usual build (`__builtin_clz`), where these texts are excluded, the estimate of any column is a number. -/
theorem C108_defined_builtin (cfg : XxConfig) (texts : List (Nat × Bytes)) (hh : HashesEnd 16 (texts.map Prod.snd)) :
    ∃ n, n ≤ 2 ^ 37 ∧ countTexts cfg true texts = .ok n :=
  C108_defined_partial cfg true texts (fun _ => hh) [] (fun t ht h => absurd h (hh t ht)) (by simp)

/-- **C108 is violated** in builds without `__builtin_clz`: there is a column of 65536 cells of four bytes for which the estimate is the logarithm of
a negative number, which is then cast to an integer. -/
theorem C108_defined_violated (cfg : XxConfig) :
    ∃ texts : List (Nat × Bytes), countTexts cfg false texts = .ub "not a number" := by
  have hl : (List.replicate 65536 17).length = 65536 := List.length_replicate
  have h17 : ∀ i, (List.replicate 65536 17).getD i 0 ≤ 17 := by
    intro i
    rw [List.getD_eq_getElem?_getD, List.getElem?_replicate]
    split <;> simp
  obtain ⟨s0, h0, h1⟩ := holds_of_run (cfg := cfg) (builtin := false) hl h17 (textsFor_makes _ hl) (fun h => by cases h)
  refine ⟨(textsFor (List.replicate 65536 17)).map (fun t => (0, t)), ?_⟩
  simp only [countTexts, h0, h1]
  exact cardinality_nan _ rfl

/-- **C108**, more texts: the estimate does not go down when texts are added, unless it stops to count empty buckets.
Missing: this change, see `C108_monotone_violated`. -/
theorem C108_monotone_partial (cfg : XxConfig) (builtin : Bool) (texts more : List (Nat × Bytes))
    (hsub : ∀ t ∈ texts.map Prod.snd, t ∈ more.map Prod.snd)
    (hh : builtin = true → HashesEnd 16 (more.map Prod.snd))
    (hc : ∀ s s', HoldsTexts (texts.map Prod.snd) s → HoldsTexts (more.map Prod.snd) s' → CountsEmpty s → CountsEmpty s')
    (l : List Bytes) (hl : ∀ t ∈ more.map Prod.snd, EndsInZeros t → t ∈ l) (hl2 : l.length ≤ 32768) :
    ∃ n n', countTexts cfg builtin texts = .ok n ∧ countTexts cfg builtin more = .ok n' ∧ n ≤ n' := by
  have hh' : builtin = true → HashesEnd 16 (texts.map Prod.snd) := fun e t ht => hh e t (hsub t ht)
  obtain ⟨s, hs, he⟩ := countTexts_eq cfg builtin texts hh'
  obtain ⟨s', hs', he'⟩ := countTexts_eq cfg builtin more hh
  have hc' := (count17_le hs' l hl).trans hl2
  obtain ⟨n, _, hn⟩ := cardinality_defined s hs.size (regs_le hs) ((count17_le hs l (fun t ht => hl t (hsub t ht))).trans hl2)
  obtain ⟨n', _, hn'⟩ := cardinality_defined s' hs'.size (regs_le hs') hc'
  have hsum := sum_ge s' hs'.size (regs_le hs') hc'
  have hraw := raw_le s' hs'.size hsum
  refine ⟨n, n', by rw [he, hn], by rw [he', hn'], ?_⟩
  refine cardinality_mono hs.size (sketch_mono hs hs' ?_) (hc s s' hs hs') ?_ ?_ hn hn'
  · rintro h ⟨t, ht, rfl⟩
    exact ⟨t, hsub t ht, rfl⟩
  · linarith
  · linarith

-- One cell, then another one: the hypotheses are met.
example : ∃ n n', countTexts ⟨true, true, true⟩ true [(8, "abc".toUTF8.toList)] = .ok n ∧
    countTexts ⟨true, true, true⟩ true [(8, "abc".toUTF8.toList), (7, [])] = .ok n' ∧ n ≤ n' := by
  have hh : HashesEnd 16 ["abc".toUTF8.toList, []] := by
    intro t ht
    simp only [List.mem_cons, List.not_mem_nil, or_false] at ht
    rcases ht with rfl | rfl <;> decide +kernel
  refine C108_monotone_partial _ _ _ _ (by simp) (fun _ => hh) (fun s s' _ hs' _ => ?_) [] (fun t ht h => absurd h (hh t ht)) (by simp)
  have e1 : bucketOf "abc".toUTF8.toList = 0x32D1 := by decide +kernel
  have e2 : bucketOf [] = 0x02CC := by decide +kernel
  refine countsEmpty_few s' hs'.size 2 (by omega) (zeros_eq hs' ⟨[0x32D1, 0x02CC], by decide, rfl, fun i => ?_⟩)
  simp only [List.map_cons, List.map_nil, List.mem_cons, List.not_mem_nil, or_false]
  constructor
  · rintro (rfl | rfl)
    · exact ⟨_, .inl rfl, e1⟩
    · exact ⟨_, .inr rfl, e2⟩
  · rintro ⟨t, rfl | rfl, rfl⟩
    · exact .inl e1
    · exact .inr e2

/-- **C108 is violated**: there are columns where one more cell takes the estimate from more than 700000 to less than 170000. -/
theorem C108_monotone_violated (cfg : XxConfig) (builtin : Bool) :
    ∃ (texts : List (Nat × Bytes)) (cell : Bytes) (n n' : Nat), countTexts cfg builtin texts = .ok n ∧
      countTexts cfg builtin (texts ++ [(0, cell)]) = .ok n' ∧ 700000 < n ∧ n' < 170000 := by
  obtain ⟨s0, h0, h1⟩ := holds_of_run (cfg := cfg) (builtin := builtin) regsBefore_length (fun i => (regsBefore_le i).trans (by omega))
    regsBefore_makes (fun _ => makes_end regsBefore_le regsBefore_makes)
  obtain ⟨s0', h0', h1'⟩ := holds_of_run (cfg := cfg) (builtin := builtin) regsAfter_length (fun i => (regsAfter_le i).trans (by omega))
    regsAfter_makes (fun _ => makes_end regsAfter_le regsAfter_makes)
  obtain ⟨n, hn, hn2⟩ := card_before
  obtain ⟨n', hn', hn2'⟩ := card_after
  refine ⟨(textsFor regsBefore).map (fun t => (0, t)), textFor 1 16, n, n', ?_, ?_, hn2, hn2'⟩
  · simp only [countTexts, h0, h1]; exact hn
  · have e : (textsFor regsBefore).map (fun t => ((0 : Nat), t)) ++ [(0, textFor 1 16)] =
        (textsFor regsBefore ++ [textFor 1 16]).map (fun t => (0, t)) := by simp
    rw [e]
    simp only [countTexts, h0', h1']; exact hn'

end Mlio
