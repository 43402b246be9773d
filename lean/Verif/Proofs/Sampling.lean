import Verif.Proofs.Instances

namespace Mlio

/-! ### Rounding to 24 bits -/

theorem log2_bounds {p : Nat} (h : p ≠ 0) : 2 ^ p.log2 ≤ p ∧ p < 2 ^ (p.log2 + 1) :=
  ⟨Nat.log2_self_le h, Nat.lt_log2_self⟩

/-- Round to nearest even at scale `2^s`. -/
def rne (s p : Nat) : Nat :=
  if p % 2 ^ s > 2 ^ (s - 1) ∨ (p % 2 ^ s = 2 ^ (s - 1) ∧ p / 2 ^ s % 2 = 1) then p / 2 ^ s + 1 else p / 2 ^ s

theorem round24_eq {p : Nat} (h : 2 ^ 24 ≤ p) :
    round24 p = rne (p.log2 - 23) p * 2 ^ (p.log2 - 23) := by
  unfold round24 rne
  rw [if_neg (by omega)]
  simp only [Nat.shiftRight_eq_div_pow, Nat.shiftLeft_eq]
  split <;> rfl

theorem rne_mono (s : Nat) {p q : Nat} (h : p ≤ q) : rne s p ≤ rne s q := by
  have hd : p / 2 ^ s ≤ q / 2 ^ s := Nat.div_le_div_right h
  have e1 := Nat.div_add_mod p (2 ^ s)
  have e2 := Nat.div_add_mod q (2 ^ s)
  unfold rne
  by_cases he : p / 2 ^ s = q / 2 ^ s
  · rw [he] at e1 ⊢
    have : p % 2 ^ s ≤ q % 2 ^ s := by omega
    split <;> split <;> omega
  · split <;> split <;> omega

theorem log2_mono {p q : Nat} (hp : p ≠ 0) (h : p ≤ q) : p.log2 ≤ q.log2 := by
  have h1 := log2_bounds hp
  have h2 := log2_bounds (p := q) (by omega)
  have : 2 ^ p.log2 < 2 ^ (q.log2 + 1) := by omega
  have := (Nat.pow_lt_pow_iff_right (show 1 < 2 by omega)).1 this
  omega

theorem rne_le {s p : Nat} (h : p < 2 ^ (24 + s)) : rne s p ≤ 2 ^ 24 := by
  have : p / 2 ^ s < 2 ^ 24 := by
    rw [Nat.div_lt_iff_lt_mul (Nat.two_pow_pos s), ← Nat.pow_add]
    exact h
  unfold rne
  split <;> omega

theorem le_rne {s p : Nat} (h : 2 ^ (23 + s) ≤ p) : 2 ^ 23 ≤ rne s p := by
  have : 2 ^ 23 ≤ p / 2 ^ s := by
    rw [Nat.le_div_iff_mul_le (Nat.two_pow_pos s), ← Nat.pow_add]
    exact h
  unfold rne
  split <;> omega

theorem le_log2 {p : Nat} (h : 2 ^ 24 ≤ p) : 24 ≤ p.log2 := by
  have h1 := log2_bounds (p := p) (by omega)
  have : 2 ^ 24 < 2 ^ (p.log2 + 1) := by omega
  have := (Nat.pow_lt_pow_iff_right (show 1 < 2 by omega)).1 this
  omega

theorem round24_mono {p q : Nat} (h : p ≤ q) : round24 p ≤ round24 q := by
  by_cases hq : 2 ^ 24 ≤ q
  · have lq := le_log2 hq
    have bq := log2_bounds (p := q) (by omega)
    rw [round24_eq hq]
    have low : 2 ^ (23 + (q.log2 - 23)) ≤ rne (q.log2 - 23) q * 2 ^ (q.log2 - 23) := by
      rw [Nat.pow_add]
      apply Nat.mul_le_mul_right
      apply le_rne
      rw [show 23 + (q.log2 - 23) = q.log2 by omega]
      exact bq.1
    by_cases hp : 2 ^ 24 ≤ p
    · have lp := le_log2 hp
      have bp := log2_bounds (p := p) (by omega)
      rw [round24_eq hp]
      have hl := log2_mono (by omega) h
      by_cases he : p.log2 = q.log2
      · rw [he]
        exact Nat.mul_le_mul_right _ (rne_mono _ h)
      · refine Nat.le_trans ?_ low
        have : rne (p.log2 - 23) p ≤ 2 ^ 24 := by
          apply rne_le
          rw [show 24 + (p.log2 - 23) = p.log2 + 1 by omega]
          exact bp.2
        refine Nat.le_trans (Nat.mul_le_mul_right _ this) ?_
        rw [← Nat.pow_add]
        exact Nat.pow_le_pow_right (by omega) (by omega)
    · have : round24 p = p := by unfold round24; rw [if_pos (by omega)]
      rw [this]
      refine Nat.le_trans ?_ low
      have : 2 ^ 24 ≤ 2 ^ (23 + (q.log2 - 23)) := Nat.pow_le_pow_right (by omega) (by omega)
      omega
  · have hp : ¬ 2 ^ 24 ≤ p := by omega
    unfold round24
    rw [if_pos (by omega), if_pos (by omega)]
    exact h

/-- Numbers with at most 24 significant bits are not changed. -/
theorem round24_exact {n k : Nat} (hn : n < 2 ^ 24) : round24 (n * 2 ^ k) = n * 2 ^ k := by
  by_cases hp : 2 ^ 24 ≤ n * 2 ^ k
  · rw [round24_eq hp]
    have lp := le_log2 hp
    have bp := log2_bounds (p := n * 2 ^ k) (by omega)
    have hs : (n * 2 ^ k).log2 - 23 ≤ k := by
      have h1 : n * 2 ^ k < 2 ^ (24 + k) := by
        rw [Nat.pow_add]
        exact Nat.mul_lt_mul_of_pos_right hn (Nat.two_pow_pos k)
      have : 2 ^ (n * 2 ^ k).log2 < 2 ^ (24 + k) := Nat.lt_of_le_of_lt bp.1 h1
      have := (Nat.pow_lt_pow_iff_right (show 1 < 2 by omega)).1 this
      omega
    generalize (n * 2 ^ k).log2 - 23 = s at hs
    have hd : 2 ^ s ∣ n * 2 ^ k := Nat.dvd_trans (Nat.pow_dvd_pow 2 hs) (Nat.dvd_mul_left _ _)
    have h0 : n * 2 ^ k % 2 ^ s = 0 := Nat.mod_eq_zero_of_dvd hd
    have hpos : 0 < 2 ^ (s - 1) := Nat.two_pow_pos _
    unfold rne
    rw [h0, if_neg (by omega)]
    exact Nat.div_mul_cancel hd
  · unfold round24
    rw [if_pos (by omega)]

theorem Ratio.keep_mono (r : Ratio) {a b : Nat} (h : a ≤ b) : r.keep a ≤ r.keep b :=
  Nat.div_le_div_right (round24_mono (Nat.mul_le_mul_left _ h))

theorem Ratio.keep_le (r : Ratio) (hr : r.ok = true) {n : Nat} (hn : n < 2 ^ 24) : r.keep n ≤ n := by
  simp [Ratio.ok] at hr
  have h1 : round24 (r.mant * n) ≤ round24 (n * 2 ^ r.exp) := by
    apply round24_mono
    rw [Nat.mul_comm]
    exact Nat.mul_le_mul_left _ (by omega)
  rw [round24_exact hn] at h1
  unfold Ratio.keep
  exact Nat.div_le_of_le_mul (by rw [Nat.mul_comm (2 ^ r.exp)]; exact h1)

/-- The count lies between the floor and the ceiling of the exact product. -/
theorem Ratio.keep_bounds (r : Ratio) (hr : r.ok = true) {n : Nat} (hn : n < 2 ^ 24) :
    r.mant * n / 2 ^ r.exp ≤ r.keep n ∧ r.keep n ≤ (r.mant * n + (2 ^ r.exp - 1)) / 2 ^ r.exp := by
  simp [Ratio.ok] at hr
  have hpos : 0 < 2 ^ r.exp := Nat.two_pow_pos _
  have hle : r.mant * n ≤ n * 2 ^ r.exp := by
    rw [Nat.mul_comm]
    exact Nat.mul_le_mul_left _ (by omega)
  unfold Ratio.keep
  constructor
  · have h1 : r.mant * n / 2 ^ r.exp < 2 ^ 24 := by
      have := Nat.div_le_of_le_mul (show r.mant * n ≤ 2 ^ r.exp * n by rw [Nat.mul_comm (2 ^ r.exp)]; exact hle)
      omega
    have h2 := round24_mono (Nat.div_mul_le_self (r.mant * n) (2 ^ r.exp))
    rw [round24_exact h1] at h2
    exact (Nat.le_div_iff_mul_le hpos).2 h2
  · generalize hc : (r.mant * n + (2 ^ r.exp - 1)) / 2 ^ r.exp = c
    have e := Nat.div_add_mod (r.mant * n + (2 ^ r.exp - 1)) (2 ^ r.exp)
    have hlt := Nat.mod_lt (r.mant * n + (2 ^ r.exp - 1)) hpos
    rw [hc] at e
    have h3 : r.mant * n ≤ c * 2 ^ r.exp := by
      rw [Nat.mul_comm c]
      omega
    have hcn : c ≤ n := by
      have : 2 ^ r.exp * c < 2 ^ r.exp * (n + 1) := by
        rw [Nat.mul_add, Nat.mul_comm _ n]
        omega
      have := Nat.lt_of_mul_lt_mul_left this
      omega
    have h2 := round24_mono h3
    rw [round24_exact (by omega)] at h2
    exact Nat.div_le_of_le_mul (by rw [Nat.mul_comm (2 ^ r.exp)]; exact h2)

/-! ### Blocks -/

theorem blocks_nil {α : Type} (n : Nat) (hn : 0 < n) : Spec.blocks n ([] : List α) = [] := by
  unfold Spec.blocks
  simp only [List.length_nil, Nat.zero_add]
  rw [Nat.div_eq_of_lt (by omega)]
  rfl

theorem blocks_cons {α : Type} (n : Nat) (hn : 0 < n) (xs : List α) (hx : xs ≠ []) :
    Spec.blocks n xs = xs.take n :: Spec.blocks n (xs.drop n) := by
  have hpos := List.length_pos_iff.2 hx
  have e : (xs.length + (n - 1)) / n = ((xs.drop n).length + (n - 1)) / n + 1 := by
    rw [List.length_drop]
    by_cases hl : n ≤ xs.length
    · rw [← Nat.add_div_right _ hn]
      congr 1
      omega
    · rw [show xs.length - n = 0 by omega, Nat.zero_add, Nat.div_eq_of_lt (show n - 1 < n by omega)]
      rw [Nat.div_eq_of_lt_le] <;> omega
  unfold Spec.blocks
  rw [e, List.range_succ_eq_map]
  simp only [List.map_cons, Nat.zero_mul, List.drop_zero, List.map_map]
  congr 1
  apply List.map_congr_left
  intro i _
  simp only [Function.comp, List.drop_drop]
  congr 2
  rw [Nat.succ_mul]
  omega

theorem sample_nil {α : Type} (keep : Nat → Nat) : Spec.sample keep ([] : List α) = [] := by
  unfold Spec.sample
  rw [blocks_nil 100 (by omega)]
  rfl

theorem sample_cons {α : Type} (keep : Nat → Nat) (xs : List α) (hx : xs ≠ []) :
    Spec.sample keep xs = (xs.take 100).take (keep (xs.take 100).length) ++ Spec.sample keep (xs.drop 100) := by
  unfold Spec.sample
  rw [blocks_cons 100 (by omega) xs hx]
  rfl

theorem sample_keep_zero {α : Type} (keep : Nat → Nat) (hm : ∀ a b, a ≤ b → keep a ≤ keep b)
    (h : keep 100 = 0) (xs : List α) : Spec.sample keep xs = [] := by
  unfold Spec.sample
  rw [List.flatMap_eq_nil_iff]
  intro b hb
  simp only [Spec.blocks, List.mem_map] at hb
  obtain ⟨i, _, rfl⟩ := hb
  have : keep ((xs.drop (i * 100)).take 100).length ≤ keep 100 := hm _ _ (by simp; omega)
  rw [show keep ((xs.drop (i * 100)).take 100).length = 0 by omega]
  rfl

/-- If the first block gives nothing, nothing follows. -/
theorem sample_first_zero {α : Type} (keep : Nat → Nat) (hm : ∀ a b, a ≤ b → keep a ≤ keep b)
    (xs : List α) (h : keep (xs.take 100).length = 0) : Spec.sample keep xs = [] := by
  by_cases hl : 100 ≤ xs.length
  · apply sample_keep_zero keep hm
    rw [List.length_take, Nat.min_eq_left hl] at h
    exact h
  · by_cases hx : xs = []
    · rw [hx]; exact sample_nil keep
    · rw [sample_cons keep xs hx, h, List.drop_eq_nil_of_le (by omega), sample_nil]
      rfl

namespace Machine
variable {α : Type} {m : Machine α}

theorem sampleLoop_yields (room : Nat) {s : m.σ} {xs} (buf : List (Option α)) (h : m.Yields s xs (.ok none)) :
    ∃ s', sampleLoop m room s buf = (.ok (), s', buf ++ (xs.take room).map some) ∧
      m.Yields s' (xs.drop room) (.ok none) := by
  induction room generalizing s xs buf with
  | zero => exact ⟨s, by simp [sampleLoop], by simpa using h⟩
  | succ n ih =>
    cases xs with
    | nil =>
      obtain ⟨s', e, h'⟩ := h.read_nil
      exact ⟨s', by simp [sampleLoop, e], by simpa using h'⟩
    | cons x xs =>
      obtain ⟨s', e, h'⟩ := h.read_cons
      obtain ⟨s'', e', h''⟩ := ih (buf ++ [some x]) h'
      exact ⟨s'', by simp [sampleLoop, e, e'], by simpa using h''⟩

theorem sampledTake_some {σ : Type} (s : SampledState σ α) (v : α) (vs : List α)
    (h : s.buffer.drop s.pos = (v :: vs).map some) :
    ∃ buf, sampledTake s = (.ok (some v), ⟨s.inner, buf, s.pos + 1⟩) ∧ s.pos + 1 ≤ buf.length ∧
      buf.drop (s.pos + 1) = vs.map some := by
  have hlt : s.pos < s.buffer.length := by
    apply Classical.byContradiction
    intro hn
    rw [List.drop_eq_nil_of_le (by omega)] at h
    simp at h
  have hne : s.buffer.isEmpty = false := by
    cases hb : s.buffer with
    | nil => simp [hb] at hlt
    | cons => rfl
  have hg : s.buffer.getD s.pos none = some v := by
    rw [List.drop_eq_getElem_cons hlt, List.map_cons, List.cons.injEq] at h
    simp [List.getD, hlt, h.1]
  refine ⟨s.buffer.set s.pos none, ?_, ?_, ?_⟩
  · unfold sampledTake
    rw [hne, hg]
    simp [hlt]
  · simp only [List.length_set]; omega
  · rw [List.drop_set_of_lt (by omega)]
    rw [List.drop_eq_getElem_cons hlt, List.map_cons, List.cons.injEq] at h
    exact h.2

theorem sampled_yields (r : Ratio) (hr : r.ok = true) {s : m.σ} {xs} (h : m.Yields s xs (.ok none)) :
    (sampled r m).Yields ⟨s, [], 0⟩ (Spec.sample r.keep xs) (.ok none) := by
  have hm : ∀ a b, a ≤ b → r.keep a ≤ r.keep b := fun _ _ => r.keep_mono
  let R : SampledState m.σ α → List α → Prop := fun st ys =>
    st.pos ≤ st.buffer.length ∧ ∃ (vs xs : List α), st.buffer.drop st.pos = vs.map some ∧
      m.Yields st.inner xs (.ok none) ∧ ys = vs ++ Spec.sample r.keep xs
  -- filling at the end of the buffer keeps `R`
  have fill : ∀ (st : SampledState m.σ α) ys, R st ys → st.pos = st.buffer.length →
      ∃ st', sampledFill m r st = (.ok (), st') ∧ R st' ys ∧ st'.pos = 0 ∧ (st'.buffer = [] → ys = []) := by
    rintro ⟨i, b, p⟩ ys ⟨hle, vs, xs, hb, hy, rfl⟩ hp
    simp only at hle hb hy hp
    have hvs : vs = [] := by
      rw [hp] at hb
      simpa using hb.symm
    subst hvs
    obtain ⟨s', e, h'⟩ := sampleLoop_yields 100 ([] : List (Option α)) hy
    simp only [List.nil_append] at e
    by_cases hx : xs = []
    · subst hx
      refine ⟨⟨s', [], 0⟩, by simp [sampledFill, e], ⟨by simp, [], [], rfl, by simpa using h', rfl⟩, rfl, ?_⟩
      intro _
      simp [sample_nil]
    · have hlen : ((xs.take 100).map some).isEmpty = false := by
        cases xs with
        | nil => exact absurd rfl hx
        | cons => rfl
      have hk : r.keep (xs.take 100).length ≤ (xs.take 100).length :=
        r.keep_le hr (by simp; omega)
      refine ⟨⟨s', ((xs.take 100).map some).take (r.keep (xs.take 100).length), 0⟩, ?_, ⟨by simp, ?_⟩, rfl, ?_⟩
      · unfold sampledFill
        simp only [e, hlen, List.length_map]
        rw [if_neg (by simp), if_neg (by omega)]
      · refine ⟨(xs.take 100).take (r.keep (xs.take 100).length), xs.drop 100, ?_, h', ?_⟩
        · simp [List.map_take]
        · rw [List.nil_append, sample_cons r.keep xs hx]
      · intro h0
        simp only at h0
        rw [List.nil_append]
        apply sample_first_zero r.keep hm
        rw [List.take_eq_nil_iff] at h0
        rcases h0 with h0 | h0
        · exact h0
        · rw [h0] at hlen
          simp at hlen
  refine yields_of (m := sampled r m) R (.ok none) ?_ ?_ _ _
    ⟨by simp, [], xs, rfl, h, rfl⟩
  · intro st y ys hR
    have take : ∀ st' : SampledState m.σ α, R st' (y :: ys) → st'.pos < st'.buffer.length →
        (sampledTake st').1 = .ok (some y) ∧ R (sampledTake st').2 ys := by
      rintro st' ⟨hle, vs, xs, hb, hy, hx⟩ hlt
      cases vs with
      | nil =>
        simp at hb
        omega
      | cons v vs =>
        simp at hx
        obtain ⟨buf, e, h1, h2⟩ := sampledTake_some st' v vs hb
        rw [e]
        exact ⟨by rw [hx.1], h1, vs, xs, h2, hy, hx.2⟩
    show (sampledRead m r st).1 = _ ∧ R (sampledRead m r st).2 ys
    by_cases hp : st.pos = st.buffer.length
    · obtain ⟨st', e, hR', h0, hne⟩ := fill st _ hR hp
      unfold sampledRead
      simp only [if_pos hp, e]
      apply take st' hR'
      rw [h0]
      apply List.length_pos_iff.2
      intro hb
      simpa using hne hb
    · unfold sampledRead
      simp only [if_neg hp]
      exact take st hR (by have := hR.1; omega)
  · intro st hR
    show (sampledRead m r st).1 = _ ∧ R (sampledRead m r st).2 []
    by_cases hp : st.pos = st.buffer.length
    · obtain ⟨st', e, hR', h0, hne⟩ := fill st _ hR hp
      unfold sampledRead
      simp only [if_pos hp, e]
      have hb : st'.buffer = [] := by
        obtain ⟨hle, vs, xs, hb, hy, hx⟩ := hR'
        simp at hx
        rw [h0, hx.1] at hb
        simpa using hb
      unfold sampledTake
      rw [hb]
      simp only [List.isEmpty_nil, if_true]
      exact ⟨trivial, hR'⟩
    · obtain ⟨hle, vs, xs, hb, hy, hx⟩ := hR
      simp at hx
      rw [hx.1] at hb
      simp at hb
      omega

end Machine
end Mlio
