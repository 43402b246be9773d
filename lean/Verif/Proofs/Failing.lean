import Verif.Proofs.Batching

/-!
# Instance readers over a reader that fails
-/

namespace Mlio
open Spec
namespace Machine
variable {α : Type} {m : Machine α}

theorem reads_of (R : m.σ → List α → Prop) (t : Res (Option α))
    (hc : ∀ s x xs, R s (x :: xs) → (m.read s).1 = .ok (some x) ∧ R (m.read s).2 xs)
    (hn : ∀ s, R s [] → (m.read s).1 = t) : ∀ s xs, R s xs → m.ReadsTo s xs t := by
  intro s xs h
  induction xs generalizing s with
  | nil => exact hn s h
  | cons x xs ih => exact ⟨(hc s x xs h).1, ih _ (hc s x xs h).2⟩

theorem base_reads {s : m.σ} {xs t} (h : m.ReadsTo s xs t) : m.base.ReadsTo (s, none) xs t := by
  refine reads_of (m := m.base) (fun s xs => s.2 = none ∧ m.ReadsTo s.1 xs t) t ?_ ?_ _ _ ⟨rfl, h⟩
  · rintro ⟨s, p⟩ x xs ⟨hp, h⟩
    simp only at hp h
    subst hp
    obtain ⟨s', e, h'⟩ := h.read_cons
    simp [base, baseRead, e, h']
  · rintro ⟨s, p⟩ ⟨hp, h⟩
    simp only at hp h
    subst hp
    obtain ⟨s', e⟩ := h.read_nil
    simp [base, baseRead, e]

theorem skip_reads (n : Nat) {s : m.σ} {xs t} (h : m.ReadsTo s xs t) (hn : n ≤ xs.length) :
    ∃ s', skipLoop m n s = (.ok true, s') ∧ m.ReadsTo s' (xs.drop n) t := by
  induction n generalizing s xs with
  | zero => exact ⟨s, rfl, by simpa using h⟩
  | succ n ih =>
    cases xs with
    | nil => simp at hn
    | cons x xs =>
      obtain ⟨s', e, h'⟩ := h.read_cons
      obtain ⟨s'', e', h''⟩ := ih h' (by simpa using hn)
      exact ⟨s'', by simp [skipLoop, e, e'], by simpa using h''⟩

theorem skip_fails (n : Nat) {s : m.σ} {xs} {e : Err} (h : m.ReadsTo s xs (.err e)) (hn : xs.length < n) :
    ∃ s', skipLoop m n s = (.err e, s') := by
  induction n generalizing s xs with
  | zero => simp at hn
  | succ n ih =>
    cases xs with
    | nil =>
      obtain ⟨s', e'⟩ := h.read_nil
      exact ⟨s', by simp [skipLoop, e']⟩
    | cons x xs =>
      obtain ⟨s', e', h'⟩ := h.read_cons
      obtain ⟨s'', e''⟩ := ih h' (by simpa using hn)
      exact ⟨s'', by simp [skipLoop, e', e'']⟩

/-- The range ends before the failure. -/
theorem ranged_before (skip n : Nat) {s : m.σ} {xs} {e : Err} (h : m.ReadsTo s xs (.err e)) (hn : skip + n ≤ xs.length) :
    (ranged skip (some n) m).Yields ⟨s, true, 0⟩ ((xs.drop skip).take n) (.ok none) := by
  let R : RangedState m.σ → List α → Prop := fun st ys => st.firstRead = false ∧ st.numRead ≤ n ∧
    ∃ zs, m.ReadsTo st.inner zs (.err e) ∧ n - st.numRead ≤ zs.length ∧ ys = zs.take (n - st.numRead)
  have rest : ∀ st ys, R st ys →
      (∀ y l, ys = y :: l → (rangedReadRest m (some n) st).1 = .ok (some y) ∧ R (rangedReadRest m (some n) st).2 l) ∧
      (ys = [] → (rangedReadRest m (some n) st).1 = .ok none ∧ R (rangedReadRest m (some n) st).2 []) := by
    rintro ⟨i, f, k⟩ ys ⟨rfl, hk, zs, hz, hl, rfl⟩
    simp only at hk hz hl ⊢
    constructor
    · intro y l hy
      cases zs with
      | nil => simp at hy
      | cons z zs =>
        obtain ⟨s', e', h'⟩ := hz.read_cons
        obtain ⟨j, hj⟩ : ∃ j, n - k = j + 1 := by
          cases hnk : n - k with
          | zero => rw [hnk] at hy; simp at hy
          | succ j => exact ⟨j, rfl⟩
        rw [hj, List.take_succ_cons, List.cons.injEq] at hy
        have hst : RangedState.stop (⟨i, false, k⟩ : RangedState m.σ) (some n) = false := by
          simp only [RangedState.stop, beq_eq_false_iff_ne]; omega
        simp only [rangedReadRest, hst, e']
        rw [hj] at hl
        simp only [List.length_cons] at hl
        exact ⟨by simp [hy.1], rfl, show k + 1 ≤ n by omega, zs, h', show n - (k + 1) ≤ zs.length by omega,
          by rw [← hy.2]; show zs.take j = zs.take (n - (k + 1)); congr 1; omega⟩
    · intro hy
      have hnk : n - k = 0 := by
        apply Classical.byContradiction
        intro h0
        rcases List.take_eq_nil_iff.1 hy with h1 | h1
        · exact h0 h1
        · rw [h1] at hl; simp at hl; omega
      have hst : RangedState.stop (⟨i, false, k⟩ : RangedState m.σ) (some n) = true := by
        simp only [RangedState.stop, beq_iff_eq]; omega
      simp only [rangedReadRest, hst, if_true]
      exact ⟨trivial, rfl, hk, zs, hz, hl, hy.symm⟩
  obtain ⟨s', es, h'⟩ := skip_reads skip h (by omega)
  have first : (ranged skip (some n) m).read (⟨s, true, 0⟩ : RangedState m.σ) = rangedReadRest m (some n) ⟨s', false, 0⟩ := by
    show rangedRead m skip (some n) ⟨s, true, 0⟩ = _
    unfold rangedRead
    simp only [if_true, es]
  have yields : ∀ st ys, R st ys → (ranged skip (some n) m).Yields st ys (.ok none) := by
    have eqr : ∀ st : RangedState m.σ, st.firstRead = false → (ranged skip (some n) m).read st = rangedReadRest m (some n) st := by
      intro st hf
      show rangedRead m skip (some n) st = _
      unfold rangedRead
      rw [hf]
      simp
    refine yields_of (m := ranged skip (some n) m) R (.ok none) ?_ ?_
    · intro st y l hR
      rw [eqr st hR.1]
      exact (rest st _ hR).1 y l rfl
    · intro st hR
      rw [eqr st hR.1]
      exact (rest st _ hR).2 rfl
  have hR : R ⟨s', false, 0⟩ ((xs.drop skip).take n) :=
    ⟨rfl, Nat.zero_le _, xs.drop skip, h', by simp; omega, by simp⟩
  cases hy : (xs.drop skip).take n with
  | nil =>
    rw [hy] at hR
    refine yields_nil.2 ?_
    rw [first]
    exact ⟨((rest _ _ hR).2 rfl).1, yields _ _ ((rest _ _ hR).2 rfl).2⟩
  | cons y l =>
    rw [hy] at hR
    refine yields_cons.2 ?_
    rw [first]
    exact ⟨((rest _ _ hR).1 y l rfl).1, yields _ _ ((rest _ _ hR).1 y l rfl).2⟩

/-- The range goes on behind the failure. -/
theorem ranged_fails (skip : Nat) (num : Option Nat) {s : m.σ} {xs} {e : Err} (h : m.ReadsTo s xs (.err e))
    (hn : ∀ n, num = some n → xs.length < skip + n) :
    (ranged skip num m).ReadsTo ⟨s, true, 0⟩ (xs.drop skip) (.err e) := by
  let R : RangedState m.σ → List α → Prop := fun st ys => m.ReadsTo st.inner ys (.err e) ∧ st.firstRead = false ∧
    ∀ n, num = some n → st.numRead + ys.length < n
  have rest : ∀ st ys, R st ys →
      (∀ y l, ys = y :: l → (rangedReadRest m num st).1 = .ok (some y) ∧ R (rangedReadRest m num st).2 l) ∧
      (ys = [] → (rangedReadRest m num st).1 = .err e) := by
    rintro ⟨i, f, k⟩ ys ⟨hz, rfl, hl⟩
    simp only at hz hl ⊢
    have hst : RangedState.stop (⟨i, false, k⟩ : RangedState m.σ) num = false := by
      cases num with
      | none => rfl
      | some n =>
        have := hl n rfl
        simp only [RangedState.stop, beq_eq_false_iff_ne]
        omega
    constructor
    · rintro y l rfl
      obtain ⟨s', e', h'⟩ := hz.read_cons
      simp only [rangedReadRest, hst, e']
      refine ⟨by simp, h', rfl, fun n hx => ?_⟩
      have := hl n hx
      simp only [List.length_cons] at this
      show k + 1 + l.length < n
      omega
    · rintro rfl
      obtain ⟨s', e'⟩ := hz.read_nil
      simp [rangedReadRest, hst, e']
  have reads : ∀ st ys, R st ys → (ranged skip num m).ReadsTo st ys (.err e) := by
    have eqr : ∀ st : RangedState m.σ, st.firstRead = false → (ranged skip num m).read st = rangedReadRest m num st := by
      intro st hf
      show rangedRead m skip num st = _
      unfold rangedRead
      rw [hf]
      simp
    refine reads_of (m := ranged skip num m) R (.err e) ?_ ?_
    · intro st y l hR
      rw [eqr st hR.2.1]
      exact (rest st _ hR).1 y l rfl
    · intro st hR
      rw [eqr st hR.2.1]
      exact (rest st _ hR).2 rfl
  by_cases hs : skip ≤ xs.length
  · obtain ⟨s', es, h'⟩ := skip_reads skip h hs
    have first : (ranged skip num m).read (⟨s, true, 0⟩ : RangedState m.σ) = rangedReadRest m num ⟨s', false, 0⟩ := by
      show rangedRead m skip num ⟨s, true, 0⟩ = _
      unfold rangedRead
      simp only [if_true, es]
    have hR : R ⟨s', false, 0⟩ (xs.drop skip) := ⟨h', rfl, fun n hx => by
      have := hn n hx
      simp only [List.length_drop]; omega⟩
    cases hy : xs.drop skip with
    | nil =>
      rw [hy] at hR
      show ((ranged skip num m).read (⟨s, true, 0⟩ : RangedState m.σ)).1 = _
      rw [first]
      exact (rest _ _ hR).2 rfl
    | cons y l =>
      rw [hy] at hR
      show ((ranged skip num m).read (⟨s, true, 0⟩ : RangedState m.σ)).1 = _ ∧ (ranged skip num m).ReadsTo ((ranged skip num m).read (⟨s, true, 0⟩ : RangedState m.σ)).2 l _
      rw [first]
      exact ⟨((rest _ _ hR).1 y l rfl).1, reads _ _ ((rest _ _ hR).1 y l rfl).2⟩
  · obtain ⟨s', es⟩ := skip_fails skip h (by omega)
    rw [List.drop_eq_nil_of_le (by omega)]
    show (rangedRead m skip num ⟨s, true, 0⟩).1 = _
    unfold rangedRead
    simp only [if_true, es]

theorem sharded_fails (n k : Nat) (hk : k < n) {s : m.σ} {xs} {e : Err} (h : m.ReadsTo s xs (.err e)) :
    (sharded n k m).ReadsTo (s, true) (shard n k xs) (.err e) := by
  rw [shard_eq_every n k xs hk]
  refine reads_of (m := sharded n k m)
    (fun st ys => ∃ xs, m.ReadsTo st.1 xs (.err e) ∧ ys = every n (if st.2 then k else n - 1) xs)
    (.err e) ?_ ?_ _ _ ⟨xs, h, rfl⟩
  · rintro ⟨i, f⟩ x xs ⟨xs0, hy, hx⟩
    simp only at hx hy
    generalize hj : (if f then k else n - 1) = j at hx
    have hlen : j < xs0.length := by
      apply Classical.byContradiction
      intro hlt
      rw [every_short n j xs0 (by omega)] at hx
      simp at hx
    obtain ⟨s', es, h'⟩ := skip_reads j hy (by omega)
    cases hd : xs0.drop j with
    | nil =>
      have := congrArg List.length hd
      simp at this
      omega
    | cons y ys =>
      rw [every_drop n j xs0 hd] at hx
      simp only [List.cons.injEq] at hx
      rw [hd] at h'
      obtain ⟨s'', e', h''⟩ := h'.read_cons
      simp only [sharded, shardedRead, hj, es, e', hx.1, true_and]
      exact ⟨ys, h'', by simpa using hx.2⟩
  · rintro ⟨i, f⟩ ⟨xs0, hy, hx⟩
    simp only at hx hy
    generalize hj : (if f then k else n - 1) = j at hx
    by_cases hlen : j ≤ xs0.length
    · obtain ⟨s', es, h'⟩ := skip_reads j hy hlen
      cases hd : xs0.drop j with
      | cons y ys => rw [every_drop n j xs0 hd] at hx; simp at hx
      | nil =>
        rw [hd] at h'
        obtain ⟨s'', e'⟩ := h'.read_nil
        simp only [sharded, shardedRead, hj, es, e']
    · obtain ⟨s', es⟩ := skip_fails j hy (by omega)
      simp only [sharded, shardedRead, hj, es]

theorem every_prefix (n j : Nat) (xs ys : List α) : every n j xs <+: every n j (xs ++ ys) := by
  induction xs generalizing j with
  | nil => cases j <;> exact List.nil_prefix
  | cons x xs ih =>
    cases j with
    | zero => exact List.prefix_cons_inj x |>.2 (ih (n - 1))
    | succ j => exact ih j

/-! ### Sampling -/

theorem sampleLoop_reads (room : Nat) {s : m.σ} {xs t} (buf : List (Option α)) (h : m.ReadsTo s xs t)
    (hl : room ≤ xs.length) :
    ∃ s', sampleLoop m room s buf = (.ok (), s', buf ++ (xs.take room).map some) ∧ m.ReadsTo s' (xs.drop room) t := by
  induction room generalizing s xs buf with
  | zero => exact ⟨s, by simp [sampleLoop], by simpa using h⟩
  | succ n ih =>
    cases xs with
    | nil => simp at hl
    | cons x xs =>
      obtain ⟨s', e, h'⟩ := h.read_cons
      obtain ⟨s'', e', h''⟩ := ih (buf ++ [some x]) h' (by simpa using hl)
      exact ⟨s'', by simp [sampleLoop, e, e'], by simpa using h''⟩

theorem sampleLoop_fails (room : Nat) {s : m.σ} {xs} {e : Err} (buf : List (Option α)) (h : m.ReadsTo s xs (.err e))
    (hl : xs.length < room) : ∃ s' b, sampleLoop m room s buf = (.err e, s', b) := by
  induction room generalizing s xs buf with
  | zero => simp at hl
  | succ n ih =>
    cases xs with
    | nil =>
      obtain ⟨s', e'⟩ := h.read_nil
      exact ⟨s', buf, by simp [sampleLoop, e']⟩
    | cons x xs =>
      obtain ⟨s', e', h'⟩ := h.read_cons
      obtain ⟨s'', b, e''⟩ := ih (buf ++ [some x]) h' (by simpa using hl)
      exact ⟨s'', b, by simp [sampleLoop, e', e'']⟩

/-- A failure in the middle of a block, and a full block. -/
theorem sampledRead_end (r : Ratio) (hr : r.ok = true) {st : SampledState m.σ α} {xs} {e : Err}
    (h : m.ReadsTo st.inner xs (.err e)) (hp : st.pos = st.buffer.length) :
    (xs.length < 100 → (sampledRead m r st).1 = .err e) ∧
    (100 ≤ xs.length → r.keep 100 = 0 → (sampledRead m r st).1 = .ok none) ∧
    (100 ≤ xs.length → 0 < r.keep 100 → ∃ i, sampledRead m r st =
      sampledTake ⟨i, ((xs.take 100).take (r.keep 100)).map some, 0⟩ ∧ m.ReadsTo i (xs.drop 100) (.err e)) := by
  refine ⟨fun hl => ?_, fun hl hk => ?_, fun hl hk => ?_⟩
  · obtain ⟨s', b, e'⟩ := sampleLoop_fails 100 ([] : List (Option α)) h hl
    simp [sampledRead, hp, sampledFill, e']
  all_goals
    obtain ⟨s', e', h'⟩ := sampleLoop_reads 100 ([] : List (Option α)) h hl
    have hlen : (xs.take 100).length = 100 := by simp [hl]
    have hne : ((xs.take 100).map some).isEmpty = false := by
      cases hx : xs.take 100 with
      | nil => rw [hx] at hlen; simp at hlen
      | cons => rfl
    have hk' := r.keep_le hr (n := 100) (by decide)
    have hfill : sampledFill m r st = (.ok (), ⟨s', ((xs.take 100).map some).take (r.keep 100), 0⟩) := by
      unfold sampledFill
      simp only [e', List.nil_append, hne, List.length_map, hlen]
      rw [if_neg (by simp), if_neg (by omega)]
  · simp [sampledRead, hp, hfill, sampledTake, hk]
  · refine ⟨s', ?_, h'⟩
    simp only [sampledRead, hp, if_true, hfill, List.map_take]

/-- Sampling a reader that fails: either the failure is reported, or no block gives anything. -/
theorem sampled_fails (r : Ratio) (hr : r.ok = true) {s : m.σ} {xs} {e : Err} (h : m.ReadsTo s xs (.err e)) :
    (∃ ys, (sampled r m).ReadsTo ⟨s, [], 0⟩ ys (.err e) ∧ ∀ rest, ys <+: sample r.keep (xs ++ rest)) ∨
    ((sampled r m).ReadsTo ⟨s, [], 0⟩ [] (.ok none) ∧ ∀ rest, sample r.keep (xs ++ rest) = []) := by
  have hm : ∀ a b, a ≤ b → r.keep a ≤ r.keep b := fun _ _ => r.keep_mono
  by_cases hk : r.keep 100 = 0
  · obtain ⟨h1, h2, _⟩ := sampledRead_end r hr (st := ⟨s, [], 0⟩) h rfl
    by_cases hl : 100 ≤ xs.length
    · exact Or.inr ⟨h2 hl hk, fun rest => sample_keep_zero r.keep hm hk _⟩
    · exact Or.inl ⟨[], h1 (by omega), fun _ => List.nil_prefix⟩
  · left
    have key : ∀ (n : Nat) (xs vs : List α) (st : SampledState m.σ α), xs.length ≤ n → m.ReadsTo st.inner xs (.err e) →
        st.pos ≤ st.buffer.length → st.buffer.drop st.pos = vs.map some →
        ∃ ys, (sampled r m).ReadsTo st (vs ++ ys) (.err e) ∧ ∀ rest, ys <+: sample r.keep (xs ++ rest) := by
      intro n
      induction n using Nat.strongRecOn with
      | ind n ih =>
      intro xs vs
      induction vs with
      | nil =>
        intro st hn h hp hb
        have hpos : st.pos = st.buffer.length := by
          have := congrArg List.length hb
          simp at this
          omega
        obtain ⟨h1, _, h3⟩ := sampledRead_end r hr h hpos
        by_cases hl : 100 ≤ xs.length
        · obtain ⟨i, e1, h'⟩ := h3 hl (by omega)
          -- the next state after the first instance of the block
          have hlen : ((xs.take 100).take (r.keep 100)).length ≠ 0 := by
            simp only [List.length_take]
            omega
          cases hv : (xs.take 100).take (r.keep 100) with
          | nil => rw [hv] at hlen; simp at hlen
          | cons v vs =>
            rw [hv] at e1
            obtain ⟨buf, e2, g1, g2⟩ := sampledTake_some (⟨i, (v :: vs).map some, 0⟩ : SampledState m.σ α) v vs rfl
            have next : ∀ (vs : List α) (st : SampledState m.σ α), st.inner = i → st.pos ≤ st.buffer.length →
                st.buffer.drop st.pos = vs.map some →
                ∃ ys, (sampled r m).ReadsTo st (vs ++ ys) (.err e) ∧ ∀ rest, ys <+: sample r.keep (xs.drop 100 ++ rest) := by
              intro vs st hi hp hb
              exact ih (n - 100) (by omega) (xs.drop 100) vs st (by simp; omega) (hi ▸ h') hp hb
            obtain ⟨ys, y1, y2⟩ := next vs ⟨i, buf, 1⟩ rfl g1 g2
            refine ⟨v :: vs ++ ys, ⟨?_, ?_⟩, fun rest => ?_⟩
            · show (sampledRead m r st).1 = _
              rw [e1, e2]
            · show (sampled r m).ReadsTo (sampledRead m r st).2 _ _
              rw [e1, e2]
              exact y1
            · have hx : xs ++ rest ≠ [] := by
                cases xs with
                | nil => simp at hl
                | cons => simp
              have e3 : (xs ++ rest).take 100 = xs.take 100 := by rw [List.take_append_of_le_length hl]
              have e4 : (xs ++ rest).drop 100 = xs.drop 100 ++ rest := by rw [List.drop_append_of_le_length hl]
              rw [sample_cons r.keep _ hx, e3, e4, show (xs.take 100).length = 100 by simp [hl], hv]
              exact (List.prefix_append_right_inj _).2 (y2 rest)
        · exact ⟨[], h1 (by omega), fun _ => List.nil_prefix⟩
      | cons v vs ihv =>
        intro st hn h hp hb
        obtain ⟨buf, e2, g1, g2⟩ := sampledTake_some st v vs hb
        have hlt : st.pos ≠ st.buffer.length := by
          intro h0
          rw [h0, List.drop_length] at hb
          simp at hb
        have hread : sampledRead m r st = sampledTake st := by simp [sampledRead, hlt]
        obtain ⟨ys, y1, y2⟩ := ihv ⟨st.inner, buf, st.pos + 1⟩ hn h g1 g2
        refine ⟨ys, ⟨?_, ?_⟩, y2⟩
        · show (sampledRead m r st).1 = _
          rw [hread, e2]
        · show (sampled r m).ReadsTo (sampledRead m r st).2 _ _
          rw [hread, e2]
          exact y1
    obtain ⟨ys, h1, h2⟩ := key xs.length xs [] ⟨s, [], 0⟩ (Nat.le_refl _) h (Nat.le_refl _) rfl
    exact ⟨ys, h1, h2⟩

/-! ### Shuffling -/

theorem filter_range_le (p : Nat → Bool) : ∀ (n a j i : Nat), ((List.range' a n).filter p)[j]? = some i →
    i ≤ a + j + ((List.range' a n).filter fun x => !p x).length
  | 0, a, j, i, h => by simp at h
  | n + 1, a, j, i, h => by
    rw [List.range'_succ] at h ⊢
    by_cases ha : p a = true
    · rw [List.filter_cons_of_pos ha] at h
      rw [List.filter_cons_of_neg (by simp [ha])]
      cases j with
      | zero => simp at h; omega
      | succ j =>
        have := filter_range_le p n (a + 1) j i (by simpa using h)
        omega
    · rw [List.filter_cons_of_neg ha] at h
      rw [List.filter_cons_of_pos (by simpa using ha)]
      have := filter_range_le p n (a + 1) j i h
      simp only [List.length_cons]
      omega

/-- Instances taken from a window are the beginning of a shuffled list. -/
theorem window_extend {w : Nat} (hw : 0 < w) (xs ys : List α) (idx : List Nat) (hn : idx.Nodup)
    (hm : ys.map some = idx.map (fun i => xs[i]?)) (hb : ∀ (k i : Nat), idx[k]? = some i → i < k + w) :
    ∃ zs, ys <+: zs ∧ WindowShuffle w xs zs := by
  have hlt : ∀ i ∈ idx, i < xs.length := by
    intro i hi
    have h1 : xs[i]? ∈ idx.map (fun i => xs[i]?) := List.mem_map_of_mem hi
    rw [← hm] at h1
    obtain ⟨y, _, h2⟩ := List.mem_map.1 h1
    exact (List.getElem?_eq_some_iff.1 h2.symm).1
  let left := (List.range xs.length).filter fun i => !idx.contains i
  have hp : ((List.range xs.length).filter fun i => idx.contains i).Perm idx := by
    rw [List.perm_ext_iff_of_nodup (List.nodup_range.filter _) hn]
    intro i
    simp only [List.mem_filter, List.mem_range, List.contains_iff_mem]
    exact ⟨fun h => h.2, fun h => ⟨hlt i h, h⟩⟩
  have hleft : ∀ i ∈ left, i < xs.length := by
    intro i hi
    exact List.mem_range.1 (List.mem_filter.1 hi).1
  refine ⟨ys ++ left.filterMap (fun i => xs[i]?), List.prefix_append _ _, idx ++ left, ?_, ?_, ?_⟩
  · exact (hp.symm.append_right _).trans (List.filter_append_perm (fun i => idx.contains i) (List.range xs.length))
  · rw [List.map_append, List.map_append, hm]
    congr 1
    clear_value left
    induction left with
    | nil => rfl
    | cons i l ih =>
      have hi := hleft i (by simp)
      rw [List.filterMap_cons, List.getElem?_eq_getElem hi]
      simp only [List.map_cons, List.getElem?_eq_getElem hi, List.cons.injEq, true_and]
      exact ih (fun j hj => hleft j (by simp [hj]))
  · intro k i hk
    by_cases hki : k < idx.length
    · rw [List.getElem?_append_left hki] at hk
      exact hb k i hk
    · rw [List.getElem?_append_right (by omega)] at hk
      have := filter_range_le (fun i => !idx.contains i) xs.length 0 _ i (by rw [← List.range_eq_range']; exact hk)
      rw [← List.range_eq_range'] at this
      simp only [Bool.not_not] at this
      rw [hp.length_eq] at this
      omega

theorem shuffleFill_reads (R : Rng) (room : Nat) {st : ShuffledState m.σ R.G α} {xs : List α} {e : Err}
    (hi : st.innerHas = true) (h : m.ReadsTo st.inner xs (.err e)) :
    (room ≤ xs.length → ∃ i, shuffleFill R m room st =
        (.ok (), ⟨i, st.buffer ++ xs.take room, true, st.rng⟩) ∧ m.ReadsTo i (xs.drop room) (.err e)) ∧
    (xs.length < room → ∃ st', shuffleFill R m room st = (.err e, st')) := by
  induction room generalizing st xs with
  | zero =>
    obtain ⟨i, b, f, g⟩ := st
    simp only at hi
    subst hi
    exact ⟨fun _ => ⟨i, by simp [shuffleFill], by simpa using h⟩, by omega⟩
  | succ n ih =>
    obtain ⟨i, b, f, g⟩ := st
    simp only at hi h
    subst hi
    cases xs with
    | nil =>
      obtain ⟨s', e'⟩ := h.read_nil
      refine ⟨by simp, fun _ => ⟨⟨s', b, true, g⟩, ?_⟩⟩
      simp [shuffleFill, e']
    | cons x xs =>
      obtain ⟨s', e', h'⟩ := h.read_cons
      obtain ⟨h1, h2⟩ := ih (st := ⟨s', b ++ [x], true, g⟩) (xs := xs) rfl h'
      constructor
      · intro hl
        obtain ⟨i', e'', h''⟩ := h1 (by simpa using hl)
        exact ⟨i', by simp [shuffleFill, e', e''], by simpa using h''⟩
      · intro hl
        obtain ⟨st', e''⟩ := h2 (by simpa using hl)
        exact ⟨st', by simp [shuffleFill, e', e'']⟩

theorem shuffled_fails_aux (R : Rng) (hR : R.Lawful) (p : ShuffleParams) (hw : p.effWindow ≠ 1) {e : Err} (n : Nat) :
    ∀ (i : m.σ) (bp rest : List (α × Nat)) (g : R.G) (k : Nat),
      bp.length + rest.length ≤ n →
      m.ReadsTo i (rest.map (·.1)) (.err e) →
      bp.length ≤ p.effWindow →
      (p.window = 0 → bp.length + rest.length < 2 ^ 64 - 1) →
      (∀ q ∈ bp, q.2 < bp.length + k) →
      (rest.map (·.2) = List.range' (bp.length + k) rest.length) →
      ∃ os left : List (α × Nat), (shuffled R p m).ReadsTo ⟨i, bp.map (·.1), true, g⟩ (os.map (·.1)) (.err e) ∧
        (os ++ left).Perm (bp ++ rest) ∧ ∀ (j : Nat) (q : α × Nat), os[j]? = some q → q.2 < k + j + p.effWindow := by
  have hw0 : 0 < p.effWindow := by
    unfold ShuffleParams.effWindow
    split <;> omega
  induction n using Nat.strongRecOn with
  | ind n ih =>
  intro i bp rest g k hn hy hbw hz hb hr
  obtain ⟨f1, f2⟩ := shuffleFill_reads R (p.effWindow - (bp.map (·.1)).length)
    (st := ⟨i, bp.map (·.1), true, g⟩) (xs := rest.map (·.1)) rfl hy
  simp only [List.length_map] at f1 f2
  by_cases hlen : p.effWindow - bp.length ≤ rest.length
  · -- the buffer is full: pop a random instance
    obtain ⟨i', e', h'⟩ := f1 hlen
    generalize hroom : p.effWindow - bp.length = room at *
    have hwn : p.window ≠ 0 := by
      intro h0
      have := hz h0
      simp [ShuffleParams.effWindow, h0] at hroom hbw
      omega
    have hmax : p.maxDraw = p.effWindow - 1 := by
      simp [ShuffleParams.maxDraw, ShuffleParams.effWindow, hwn]
    let bp' := bp ++ rest.take room
    have hbl : bp'.length = p.effWindow := by simp [bp']; omega
    have hidx : (R.draw p.maxDraw g).1 < bp'.length := by
      have := hR.draw_le p.maxDraw g
      omega
    have hbne : bp' ≠ [] := by
      intro h0
      rw [h0] at hbl
      simp at hbl
      omega
    obtain ⟨z, hzl⟩ : ∃ z, bp'.getLast? = some z :=
      ⟨bp'.getLast hbne, List.getLast?_eq_some_getLast hbne⟩
    let idx := (R.draw p.maxDraw g).1
    let g' := (R.draw p.maxDraw g).2
    let nb := swapRemove bp' idx z
    have hperm : bp'.Perm (bp'[idx] :: nb) := swapRemove_perm bp' idx hidx z hzl
    have hnl : nb.length + 1 = bp'.length := by simpa using hperm.length_eq.symm
    have hread : (shuffled R p m).read (⟨i, bp.map (·.1), true, g⟩ : ShuffledState m.σ R.G α) =
        (.ok (some bp'[idx].1), (⟨i', nb.map (·.1), true, g'⟩ : ShuffledState m.σ R.G α)) := by
      have hmap : bp.map (·.1) ++ (rest.map (·.1)).take room = bp'.map (·.1) := by
        simp [bp', List.map_take]
      have hl : (bp'.map (·.1)).getLast? = some z.1 := by simp [hzl]
      have hg : (bp'.map (·.1))[idx]? = some bp'[idx].1 := by
        simp [idx, hidx]
      have hsr : (if idx ≠ (bp'.map (·.1)).length - 1 then (bp'.map (·.1)).set idx z.1 else bp'.map (·.1)).dropLast
          = nb.map (·.1) := swapRemove_map Prod.fst bp' idx z
      show shuffledRead R p m _ = _
      unfold shuffledRead
      rw [if_neg hw]
      simp only [List.length_map, hroom, e', hmap, hl, if_true]
      unfold popRandom
      simp only [hl]
      show (match (bp'.map (·.1))[idx]?, some z.1 with | some x, some l => _ | _, _ => _) = _
      rw [hg]
      simp only [g', ← hsr]
      rfl
    have hsplit : bp.length + rest.length = nb.length + (rest.drop room).length + 1 := by
      have : bp'.length = bp.length + room := by
        simp [bp', Nat.min_eq_left hlen]
      simp
      omega
    have hmem : ∀ q ∈ bp', q.2 < bp'.length + k := by
      intro q hq
      rcases List.mem_append.1 hq with hq | hq
      · have := hb q hq
        simp [bp']
        omega
      · obtain ⟨a, ha⟩ := List.mem_iff_getElem?.1 hq
        rw [List.getElem?_take] at ha
        split at ha
        · have h2 : (rest.map (·.2))[a]? = some q.2 := by simp [ha]
          rw [hr, List.getElem?_range'] at h2
          · simp at h2
            simp [bp']
            omega
          · have := (List.getElem?_eq_some_iff.1 ha).1
            exact this
        · simp at ha
    obtain ⟨os, left, hos, hop, hob⟩ := ih (nb.length + (rest.drop room).length) (by omega) i' nb (rest.drop room) g' (k + 1)
      (Nat.le_refl _) (by rw [List.map_drop]; exact h') (by omega) (fun h0 => absurd h0 hwn)
      (fun q hq => by
        have := hmem q (hperm.mem_iff.2 (List.mem_cons_of_mem _ hq))
        omega)
      (by
        rw [List.map_drop, hr, List.drop_range', List.length_drop]
        congr 1
        omega)
    refine ⟨bp'[idx] :: os, left, ?_, ?_, ?_⟩
    · rw [List.map_cons]
      show ((shuffled R p m).read (⟨i, bp.map (·.1), true, g⟩ : ShuffledState m.σ R.G α)).1 = _ ∧
        (shuffled R p m).ReadsTo ((shuffled R p m).read (⟨i, bp.map (·.1), true, g⟩ : ShuffledState m.σ R.G α)).2 _ _
      rw [hread]
      exact ⟨rfl, hos⟩
    · have h1 : (bp ++ rest).Perm (bp' ++ rest.drop room) := by
        simp [bp']
      refine List.Perm.trans ?_ h1.symm
      refine List.Perm.trans (List.Perm.cons _ hop) ?_
      exact (hperm.append_right _).symm
    · intro j q hq
      cases j with
      | zero =>
        simp at hq
        subst hq
        have := hmem bp'[idx] (List.getElem_mem _)
        omega
      | succ j =>
        simp at hq
        have := hob j q hq
        omega
  · -- the failure is reached
    obtain ⟨st', e2⟩ := f2 (by omega)
    refine ⟨[], bp ++ rest, ?_, List.Perm.refl _, by simp⟩
    show (shuffledRead R p m ⟨i, bp.map (·.1), true, g⟩).1 = _
    unfold shuffledRead
    rw [if_neg hw]
    simp only [List.length_map, e2]

/-- Shuffling a reader that fails: what is read before the failure is the beginning of a shuffled list, whatever would have
followed. -/
theorem shuffled_fails (R : Rng) (hR : R.Lawful) (p : ShuffleParams) (g : R.G) {s : m.σ} {xs} {e : Err}
    (h : m.ReadsTo s xs (.err e)) (hz : p.window = 0 → xs.length < 2 ^ 64 - 1) :
    ∃ ys, (shuffled R p m).ReadsTo ⟨s, [], true, g⟩ ys (.err e) ∧
      ∀ rest, ∃ zs, ys <+: zs ∧ WindowShuffle p.effWindow (xs ++ rest) zs := by
  have hw0 : 0 < p.effWindow := by
    unfold ShuffleParams.effWindow
    split <;> omega
  by_cases hw : p.effWindow = 1
  · refine ⟨xs, ?_, fun rest => window_extend hw0 _ xs (List.range xs.length) List.nodup_range ?_ ?_⟩
    · refine reads_of (m := shuffled R p m) (fun st ys => m.ReadsTo st.inner ys (.err e)) (.err e) ?_ ?_ _ _ h
      · intro st x xs hy
        obtain ⟨s', e', h'⟩ := hy.read_cons
        simp [shuffled, shuffledRead, hw, e', h']
      · intro st hy
        obtain ⟨s', e'⟩ := hy.read_nil
        simp [shuffled, shuffledRead, hw, e']
    · apply List.ext_getElem?
      intro j
      by_cases hj : j < xs.length
      · simp [hj, List.getElem?_append_left hj]
      · simp [hj]
    · intro k i hk
      have := List.getElem?_eq_some_iff.1 hk
      obtain ⟨h1, h2⟩ := this
      simp at h2
      omega
  · obtain ⟨os, left, hy, hp, hb⟩ := shuffled_fails_aux (m := m) R hR p hw (e := e) xs.zipIdx.length s [] xs.zipIdx g 0
      (by simp) (by simpa using h) (by simp) (by simpa using hz) (by simp) (by simp)
    refine ⟨os.map (·.1), by simpa using hy, fun rest => window_extend hw0 _ _ (os.map (·.2)) ?_ ?_ ?_⟩
    · have h1 := hp.map (·.2)
      simp only [List.nil_append] at h1
      have h2 : ((os ++ left).map (·.2)).Nodup := by
        rw [h1.nodup_iff, List.zipIdx_map_snd]
        exact List.nodup_range'
      rw [List.map_append] at h2
      exact (List.nodup_append.1 h2).1
    · rw [List.map_map, List.map_map]
      apply List.map_congr_left
      rintro ⟨a, i⟩ hq
      have h1 := hp.mem_iff.1 (List.mem_append_left left hq)
      simp only [List.nil_append] at h1
      rw [List.mem_zipIdx_iff_getElem?] at h1
      have h2 := (List.getElem?_eq_some_iff.1 h1).1
      simp only [Function.comp_apply]
      rw [List.getElem?_append_left h2, h1]
    · intro k i hk
      rw [List.getElem?_map, Option.map_eq_some_iff] at hk
      obtain ⟨q, hq, rfl⟩ := hk
      have := hb k q hq
      omega

theorem shuffled_ends (R : Rng) (hR : R.Lawful) (p : ShuffleParams) (g : R.G) {s : m.σ} (h : m.ReadsTo s [] (.ok none)) :
    (shuffled R p m).ReadsTo ⟨s, [], true, g⟩ [] (.ok none) := by
  obtain ⟨s', e⟩ := h.read_nil
  show (shuffledRead R p m ⟨s, [], true, g⟩).1 = _
  unfold shuffledRead
  by_cases hw : p.effWindow = 1
  · simp [hw, e]
  · have hw0 : p.effWindow ≠ 0 := by
      unfold ShuffleParams.effWindow
      split <;> omega
    obtain ⟨w, hw1⟩ : ∃ w, p.effWindow = w + 1 := ⟨p.effWindow - 1, by omega⟩
    have hb : (R.shuffle g ([] : List α)).1 = [] := List.Perm.eq_nil (hR.perm g [])
    rw [if_neg hw, hw1]
    simp [shuffleFill, e, hb]

/-! ### Batches -/

theorem batchLoop_reads (room : Nat) {s : m.σ} {xs t} (acc : List α) (h : m.ReadsTo s xs t) (hl : room ≤ xs.length) :
    ∃ s', batchLoop m room s acc = (.ok (acc ++ xs.take room), s') ∧ m.ReadsTo s' (xs.drop room) t := by
  induction room generalizing s xs acc with
  | zero => exact ⟨s, by simp [batchLoop], by simpa using h⟩
  | succ n ih =>
    cases xs with
    | nil => simp at hl
    | cons x xs =>
      obtain ⟨s', e, h'⟩ := h.read_cons
      obtain ⟨s'', e', h''⟩ := ih (acc ++ [x]) h' (by simpa using hl)
      exact ⟨s'', by simp [batchLoop, e, e'], by simpa using h''⟩

theorem batchLoop_fails (room : Nat) {s : m.σ} {xs} {e : Err} (acc : List α) (h : m.ReadsTo s xs (.err e))
    (hl : xs.length < room) : ∃ s', batchLoop m room s acc = (.err e, s') := by
  induction room generalizing s xs acc with
  | zero => simp at hl
  | succ n ih =>
    cases xs with
    | nil =>
      obtain ⟨s', e'⟩ := h.read_nil
      exact ⟨s', by simp [batchLoop, e']⟩
    | cons x xs =>
      obtain ⟨s', e', h'⟩ := h.read_cons
      obtain ⟨s'', e''⟩ := ih (acc ++ [x]) h' (by simpa using hl)
      exact ⟨s'', by simp [batchLoop, e', e'']⟩

/-- Batches of a reader that fails after `xs`: the full batches, then the failure. -/
theorem batched_fails (b : Nat) (hb : 0 < b) (h : LastHandling) {s : m.σ} {xs} {e : Err} (hy : m.ReadsTo s xs (.err e)) :
    (batched b h m).ReadsTo (s, 0) (Spec.batches b .drop xs) (.err e) := by
  refine reads_of (m := batched b h m)
    (fun st ys => ∃ xs, m.ReadsTo st.1 xs (.err e) ∧ ys = Spec.batchesFrom st.2 b .drop xs)
    (.err e) ?_ ?_ _ _ ⟨xs, hy, rfl⟩
  · rintro ⟨i, k⟩ x ys ⟨xs, hy, hx⟩
    simp only at hx hy
    have hne : xs ≠ [] := by
      rintro rfl
      rw [batchesFrom_nil k b hb] at hx
      simp at hx
    rw [batchesFrom_cons k b hb .drop xs hne] at hx
    by_cases hl : b ≤ xs.length
    · obtain ⟨s', e', h'⟩ := batchLoop_reads b [] hy hl
      have hlen : (xs.take b).length = b := by simp [hl]
      have hempty : (xs.take b).isEmpty = false := by
        cases hxt : xs.take b with
        | nil => rw [hxt] at hlen; simp at hlen; omega
        | cons => rfl
      rw [if_pos (Or.inl hlen)] at hx
      simp only [List.cons.injEq] at hx
      simp only [List.nil_append] at e'
      have hread : batchRead b h m (i, k) = (.ok (some x), (s', k + 1)) := by
        simp only [batchRead, e', hempty, hlen]
        rw [if_neg (by simp), if_neg (by simp), hx.1]
        simp only [hlen, ite_self]
      show (batchRead b h m (i, k)).1 = _ ∧ _
      refine ⟨by rw [hread], xs.drop b, ?_, ?_⟩
      · show m.ReadsTo (batchRead b h m (i, k)).2.1 _ _
        rw [hread]; exact h'
      · show ys = Spec.batchesFrom (batchRead b h m (i, k)).2.2 _ _ _
        rw [hread]; exact hx.2
    · rw [if_neg (by simp [Spec.dropsShort]; omega), List.drop_eq_nil_of_le (by omega),
        batchesFrom_nil _ b hb] at hx
      simp at hx
  · rintro ⟨i, k⟩ ⟨xs, hy, hx⟩
    simp only at hx hy
    have hl : xs.length < b := by
      apply Classical.byContradiction
      intro hn
      have hne : xs ≠ [] := by
        rintro rfl
        simp at hn
        omega
      rw [batchesFrom_cons k b hb .drop xs hne, if_pos (Or.inl (by simp; omega))] at hx
      simp at hx
    obtain ⟨s', e'⟩ := batchLoop_fails b [] hy hl
    show (batchRead b h m (i, k)).1 = _
    simp [batchRead, e']

theorem batched_ends (b : Nat) (hb : 0 < b) (h : LastHandling) {s : m.σ} (hy : m.ReadsTo s [] (.ok none)) :
    (batched b h m).ReadsTo (s, 0) [] (.ok none) := by
  obtain ⟨s', e⟩ := hy.read_nil
  obtain ⟨n, rfl⟩ : ∃ n, b = n + 1 := ⟨b - 1, by omega⟩
  show (batchRead (n + 1) h m (s, 0)).1 = _
  simp [batchRead, batchLoop, e]

/-- The full batches of a beginning are the first batches of the whole. -/
theorem batches_prefix (b : Nat) (hb : 0 < b) (h : LastHandling) (xs : List α) : ∀ (n k : Nat) (ys : List α), ys.length ≤ n →
    batchesFrom k b .drop ys <+: batchesFrom k b h (ys ++ xs) := by
  intro n
  induction n using Nat.strongRecOn with
  | ind n ih =>
  intro k ys hn
  by_cases hl : b ≤ ys.length
  · have hne : ys ≠ [] := by
      rintro rfl
      simp at hl
      omega
    have hne' : ys ++ xs ≠ [] := by simp [hne]
    have hlen : (ys.take b).length = b := by simp [hl]
    have hlen' : ((ys ++ xs).take b) = ys.take b := List.take_append_of_le_length hl
    rw [batchesFrom_cons k b hb .drop ys hne, batchesFrom_cons k b hb h _ hne', hlen', if_pos (Or.inl hlen),
      if_pos (Or.inl hlen), hlen, ite_self, ite_self, List.drop_append_of_le_length hl]
    exact (List.prefix_cons_inj _).2 (ih (n - b) (by omega) (k + 1) (ys.drop b) (by simp; omega))
  · by_cases hne : ys = []
    · rw [hne, batchesFrom_nil k b hb]; exact List.nil_prefix
    · rw [batchesFrom_cons k b hb .drop ys hne, if_neg (by simp [Spec.dropsShort]; omega),
        List.drop_eq_nil_of_le (by omega), batchesFrom_nil _ b hb]
      exact List.nil_prefix

end Machine
end Mlio
