import Verif.Spec.Instances

namespace Mlio
namespace Machine
variable {α : Type} {m : Machine α}

theorem yields_cons {s : m.σ} {x xs t} :
    m.Yields s (x :: xs) t ↔ (m.read s).1 = .ok (some x) ∧ m.Yields (m.read s).2 xs t := by
  constructor
  · intro h
    have h1 := h 1
    simp [outs] at h1
    refine ⟨h1, fun n => ?_⟩
    have := h (n + 1)
    simp [outs] at this
    rw [this.2, List.take_append, List.take_append]
    congr 1
    simp
    omega
  · rintro ⟨h1, h2⟩ n
    cases n with
    | zero => simp [outs]
    | succ n =>
      simp [outs, h1]
      rw [h2 n, List.take_append, List.take_append]
      congr 1
      simp
      omega

theorem yields_nil {s : m.σ} {t} :
    m.Yields s [] t ↔ (m.read s).1 = t ∧ m.Yields (m.read s).2 [] t := by
  constructor
  · intro h
    have h1 := h 1
    simp [outs] at h1
    refine ⟨h1, fun n => ?_⟩
    have := h (n + 1)
    simp [outs, List.replicate_succ] at this
    simp [this.2]
  · rintro ⟨h1, h2⟩ n
    cases n with
    | zero => simp [outs]
    | succ n =>
      have := h2 n
      simp at this
      simp [outs, h1, this, List.replicate_succ]

/-- To show that a machine yields a list, give a relation between states and remaining lists that is
kept by every read. -/
theorem yields_of (R : m.σ → List α → Prop) (t : Res (Option α))
    (hc : ∀ s x xs, R s (x :: xs) → (m.read s).1 = .ok (some x) ∧ R (m.read s).2 xs)
    (hn : ∀ s, R s [] → (m.read s).1 = t ∧ R (m.read s).2 []) :
    ∀ s xs, R s xs → m.Yields s xs t := by
  intro s xs h n
  induction n generalizing s xs with
  | zero => simp [outs]
  | succ n ih =>
    cases xs with
    | nil =>
      obtain ⟨h1, h2⟩ := hn s h
      have := ih _ _ h2
      simp at this
      simp [outs, h1, this, List.replicate_succ]
    | cons x xs =>
      obtain ⟨h1, h2⟩ := hc s x xs h
      have := ih _ _ h2
      simp [outs, h1, this]
      rw [List.take_append, List.take_append]
      congr 1
      simp
      omega

theorem Yields.read_cons {s : m.σ} {x xs t} (h : m.Yields s (x :: xs) t) :
    ∃ s', m.read s = (.ok (some x), s') ∧ m.Yields s' xs t := by
  obtain ⟨h1, h2⟩ := yields_cons.1 h
  exact ⟨(m.read s).2, by rw [← h1], h2⟩

theorem Yields.read_nil {s : m.σ} {t} (h : m.Yields s [] t) :
    ∃ s', m.read s = (t, s') ∧ m.Yields s' [] t := by
  obtain ⟨h1, h2⟩ := yields_nil.1 h
  exact ⟨(m.read s).2, by rw [← h1], h2⟩

theorem ReadsTo.read_cons {s : m.σ} {x xs t} (h : m.ReadsTo s (x :: xs) t) :
    ∃ s', m.read s = (.ok (some x), s') ∧ m.ReadsTo s' xs t := ⟨(m.read s).2, by rw [← h.1], h.2⟩

theorem ReadsTo.read_nil {s : m.σ} {t} (h : m.ReadsTo s [] t) : ∃ s', m.read s = (t, s') :=
  ⟨(m.read s).2, by rw [← (show (m.read s).1 = t from h)]⟩

theorem Yields.readsTo {s : m.σ} {xs t} (h : m.Yields s xs t) : m.ReadsTo s xs t := by
  induction xs generalizing s with
  | nil => exact (yields_nil.1 h).1
  | cons x xs ih => exact ⟨(yields_cons.1 h).1, ih (yields_cons.1 h).2⟩

/-- As far as it goes, a machine reads the same from states with the same outcomes. -/
theorem ReadsTo.of_outs {s u : m.σ} {xs t} (h : m.ReadsTo s xs t) (ho : ∀ n, m.outs n s = m.outs n u) : m.ReadsTo u xs t := by
  induction xs generalizing s u with
  | nil =>
    have := ho 1
    simp only [outs, List.cons.injEq, and_true] at this
    exact this.symm.trans h
  | cons x xs ih =>
    have h1 := ho 1
    simp only [outs, List.cons.injEq, and_true] at h1
    refine ⟨h1.symm.trans h.1, ih h.2 fun n => ?_⟩
    have := ho (n + 1)
    simp only [outs, List.cons.injEq] at this
    exact this.2

/-! ### The base class -/

theorem base_yields {s : m.σ} {xs t} (h : m.Yields s xs t) : m.base.Yields (s, none) xs t := by
  refine yields_of (m := m.base) (fun s xs => s.2 = none ∧ m.Yields s.1 xs t) t ?_ ?_ _ _ ⟨rfl, h⟩
  · rintro ⟨s, p⟩ x xs ⟨hp, h⟩
    simp only at hp h
    subst hp
    obtain ⟨s', e, h'⟩ := h.read_cons
    simp [base, baseRead, e, h']
  · rintro ⟨s, p⟩ ⟨hp, h⟩
    simp only at hp h
    subst hp
    obtain ⟨s', e, h'⟩ := h.read_nil
    simp [base, baseRead, e, h']

/-! ### Skipping -/

/-- A tail outcome, as the skip loop reports it. -/
def skipTail (t : Res (Option α)) : Res Bool :=
  match t with
  | .ok _ => .ok false
  | .err e => .err e
  | .ub w => .ub w

theorem skipLoop_enough (n : Nat) {s : m.σ} {xs t} (h : m.Yields s xs t) (hn : n ≤ xs.length) :
    ∃ s', skipLoop m n s = (.ok true, s') ∧ m.Yields s' (xs.drop n) t := by
  induction n generalizing s xs with
  | zero => exact ⟨s, rfl, by simpa using h⟩
  | succ n ih =>
    cases xs with
    | nil => simp at hn
    | cons x xs =>
      obtain ⟨s', e, h'⟩ := h.read_cons
      obtain ⟨s'', e', h''⟩ := ih h' (by simpa using hn)
      exact ⟨s'', by simp [skipLoop, e, e'], by simpa using h''⟩

theorem skipLoop_short (n : Nat) {s : m.σ} {xs t} (ht : ∀ x, t ≠ .ok (some x)) (h : m.Yields s xs t)
    (hn : xs.length < n) : ∃ s', skipLoop m n s = (skipTail t, s') ∧ m.Yields s' [] t := by
  induction n generalizing s xs with
  | zero => simp at hn
  | succ n ih =>
    cases xs with
    | nil =>
      obtain ⟨s', e, h'⟩ := h.read_nil
      refine ⟨s', ?_, h'⟩
      match t, ht with
      | .ok (some x), ht => exact absurd rfl (ht x)
      | .ok none, _ => simp [skipLoop, e, skipTail]
      | .err e', _ => simp [skipLoop, e, skipTail]
      | .ub w, _ => simp [skipLoop, e, skipTail]
    | cons x xs =>
      obtain ⟨s', e, h'⟩ := h.read_cons
      obtain ⟨s'', e', h''⟩ := ih h' (by simpa using hn)
      exact ⟨s'', by simp [skipLoop, e, e'], h''⟩

/-! ### Range -/

theorem ranged_yields (skip : Nat) (num : Option Nat) {s : m.σ} {xs} (h : m.Yields s xs (.ok none)) :
    (ranged skip num m).Yields ⟨s, true, 0⟩ (Spec.range skip num xs) (.ok none) := by
  let left : Nat → List α → List α := fun k ys => match num with | none => ys | some n => ys.take (n - k)
  refine yields_of (m := ranged skip num m)
    (fun st ys => (∀ n, num = some n → st.numRead ≤ n) ∧
      ((st.firstRead = true ∧ st.numRead = 0 ∧ ∃ xs, m.Yields st.inner xs (.ok none) ∧
        ys = Spec.range skip num xs) ∨
       (st.firstRead = false ∧ ∃ xs, m.Yields st.inner xs (.ok none) ∧ ys = left st.numRead xs)))
    (.ok none) ?_ ?_ _ _ ⟨by simp, Or.inl ⟨rfl, rfl, xs, h, rfl⟩⟩
  all_goals
    have rest : ∀ (st : RangedState m.σ) xs, (∀ n, num = some n → st.numRead ≤ n) → st.firstRead = false →
        m.Yields st.inner xs (.ok none) →
        (∀ y ys, left st.numRead xs = y :: ys → ∃ i, rangedReadRest m num st = (.ok (some y),
          ⟨i, false, st.numRead + 1⟩) ∧ (∀ n, num = some n → st.numRead + 1 ≤ n) ∧
          ∃ xs', m.Yields i xs' (.ok none) ∧ ys = left (st.numRead + 1) xs') ∧
        (left st.numRead xs = [] → ∃ i, rangedReadRest m num st = (.ok none, ⟨i, false, st.numRead⟩) ∧
          ∃ xs', m.Yields i xs' (.ok none) ∧ [] = left st.numRead xs') := by
      rintro ⟨i, f, k⟩ xs hle hf hy
      simp only at hf hle
      subst hf
      refine ⟨?_, ?_⟩
      · intro y ys e
        have hst : RangedState.stop (⟨i, false, k⟩ : RangedState m.σ) num = false := by
          cases num with
          | none => rfl
          | some n =>
            simp [RangedState.stop]
            rintro rfl
            simp [left] at e
        cases xs with
        | nil => cases num <;> simp [left] at e
        | cons x xs =>
          obtain ⟨s', er, h'⟩ := hy.read_cons
          refine ⟨s', ?_, ?_, xs, h', ?_⟩
          · have : x = y := by
              cases num with
              | none => simp [left] at e; exact e.1
              | some n =>
                simp [left] at e
                cases hnk : n - k with
                | zero => simp [hnk] at e
                | succ j => simp [hnk] at e; exact e.1
            subst this
            simp [rangedReadRest, hst, er]
          · intro n hn
            subst hn
            have := hle n rfl
            simp [RangedState.stop] at hst
            show k + 1 ≤ n
            omega
          · cases num with
            | none => simp [left] at e ⊢; exact e.2.symm
            | some n =>
              simp [left] at e ⊢
              cases hnk : n - k with
              | zero => simp [hnk] at e
              | succ j =>
                simp [hnk] at e
                rw [← e.2]
                congr 1
                omega
      · intro e
        by_cases hst : RangedState.stop (⟨i, false, k⟩ : RangedState m.σ) num = true
        · exact ⟨i, by simp [rangedReadRest, hst], xs, hy, e.symm⟩
        · have hx : xs = [] := by
            cases num with
            | none => simpa [left] using e
            | some n =>
              simp [left] at e
              have := hle n rfl
              simp [RangedState.stop] at hst
              rcases e with e | e
              · omega
              · exact e
          subst hx
          obtain ⟨s', er, h'⟩ := hy.read_nil
          simp only [Bool.not_eq_true] at hst
          refine ⟨s', by simp [rangedReadRest, hst, er], [], h', e.symm⟩
  · rintro ⟨i, f, k⟩ x xs ⟨hle, ⟨hf, hk, xs0, hy, hx⟩ | ⟨hf, xs0, hy, hx⟩⟩
    · simp only at hf hk hy hle
      subst hf hk
      have hlen : skip ≤ xs0.length := by
        apply Classical.byContradiction
        intro hlt
        have : xs0.drop skip = [] := List.drop_eq_nil_of_le (by omega)
        cases num <;> simp [Spec.range, this] at hx
      obtain ⟨s', es, h'⟩ := skipLoop_enough skip hy hlen
      obtain ⟨r1, -⟩ := rest ⟨s', false, 0⟩ (xs0.drop skip) hle rfl h'
      obtain ⟨i', e', hle', xs', hy', hl'⟩ := r1 x xs (by
        cases num <;> simpa [left, Spec.range] using hx.symm)
      simp only [ranged, rangedRead, es, e', if_true]
      exact ⟨trivial, hle', Or.inr ⟨trivial, xs', hy', hl'⟩⟩
    · simp only at hf hy hle hx
      subst hf
      obtain ⟨r1, -⟩ := rest ⟨i, false, k⟩ xs0 hle rfl hy
      obtain ⟨i', e', hle', xs', hy', hl'⟩ := r1 x xs hx.symm
      simp only [ranged, rangedRead, e', if_false, Bool.false_eq_true]
      exact ⟨trivial, hle', Or.inr ⟨trivial, xs', hy', hl'⟩⟩
  · rintro ⟨i, f, k⟩ ⟨hle, ⟨hf, hk, xs0, hy, hx⟩ | ⟨hf, xs0, hy, hx⟩⟩
    · simp only at hf hk hy hle
      subst hf hk
      by_cases hlen : skip ≤ xs0.length
      · obtain ⟨s', es, h'⟩ := skipLoop_enough skip hy hlen
        obtain ⟨-, r2⟩ := rest ⟨s', false, 0⟩ (xs0.drop skip) hle rfl h'
        obtain ⟨i', e', xs', hy', hl'⟩ := r2 (by
          cases num <;> simpa [left, Spec.range] using hx.symm)
        simp only [ranged, rangedRead, es, e', if_true]
        exact ⟨trivial, hle, Or.inr ⟨trivial, xs', hy', hl'⟩⟩
      · obtain ⟨s', es, h'⟩ := skipLoop_short skip (by simp) hy (by omega)
        simp only [ranged, rangedRead, es, skipTail, if_true]
        exact ⟨trivial, hle, Or.inr ⟨trivial, [], h', by cases num <;> simp [left]⟩⟩
    · simp only at hf hy hle hx
      subst hf
      obtain ⟨-, r2⟩ := rest ⟨i, false, k⟩ xs0 hle rfl hy
      obtain ⟨i', e', xs', hy', hl'⟩ := r2 hx.symm
      simp only [ranged, rangedRead, e', if_false, Bool.false_eq_true]
      exact ⟨trivial, hle, Or.inr ⟨trivial, xs', hy', hl'⟩⟩

/-! ### Shards -/

/-- Skip `j`, take one, skip `n - 1`, take one, ... -/
def every (n : Nat) : Nat → List α → List α
  | _, [] => []
  | 0, y :: ys => y :: every n (n - 1) ys
  | j + 1, _ :: ys => every n j ys

theorem every_short (n j : Nat) (ys : List α) (h : ys.length ≤ j) : every n j ys = [] := by
  induction ys generalizing j with
  | nil => cases j <;> rfl
  | cons y ys ih =>
    cases j with
    | zero => simp at h
    | succ j => exact ih j (by simpa using h)

theorem every_drop (n j : Nat) (ys : List α) {y ys'} (h : ys.drop j = y :: ys') :
    every n j ys = y :: every n (n - 1) ys' := by
  induction ys generalizing j with
  | nil => simp at h
  | cons z ys ih =>
    cases j with
    | zero => simp at h; simp [every, h.1, h.2]
    | succ j => exact ih j (by simpa using h)

theorem shard_eq_every_aux (n k j o : Nat) (ys : List α) (hk : k < n) (hj : j < n) (ho : (o + j) % n = k) :
    ((ys.zipIdx o).filter (fun p => p.2 % n = k)).map (·.1) = every n j ys := by
  induction ys generalizing j o with
  | nil => cases j <;> rfl
  | cons y ys ih =>
    cases j with
    | zero =>
      simp only [Nat.add_zero] at ho
      have h1 : (o + 1 + (n - 1)) % n = k := by
        rw [show o + 1 + (n - 1) = o + n by omega, Nat.add_mod_right, ho]
      simp only [List.zipIdx_cons]
      rw [List.filter_cons_of_pos (by simpa using ho)]
      simp only [List.map_cons, every]
      rw [ih (n - 1) (o + 1) (by omega) h1]
    | succ j =>
      have hne : o % n ≠ k := by
        intro he
        have h2 : (o % n + (j + 1)) % n = o % n := by
          rw [Nat.mod_add_mod, ho, he]
        have hlt := Nat.mod_lt o (show 0 < n by omega)
        by_cases hc : o % n + (j + 1) < n
        · rw [Nat.mod_eq_of_lt hc] at h2
          omega
        · rw [Nat.mod_eq_sub_mod (by omega), Nat.mod_eq_of_lt (by omega)] at h2
          omega
      simp only [List.zipIdx_cons]
      rw [List.filter_cons_of_neg (by simpa using hne)]
      simp only [every]
      exact ih j (o + 1) (by omega) (by rw [← ho]; congr 1; omega)

theorem shard_eq_every (n k : Nat) (ys : List α) (hk : k < n) : Spec.shard n k ys = every n k ys :=
  shard_eq_every_aux n k k 0 ys hk hk (by simpa using Nat.mod_eq_of_lt hk)

theorem sharded_yields (n k : Nat) (hk : k < n) {s : m.σ} {xs t} (ht : ∀ x, t ≠ .ok (some x))
    (h : m.Yields s xs t) : (sharded n k m).Yields (s, true) (Spec.shard n k xs) t := by
  rw [shard_eq_every n k xs hk]
  refine yields_of (m := sharded n k m)
    (fun st ys => ∃ xs, m.Yields st.1 xs t ∧ ys = every n (if st.2 then k else n - 1) xs)
    t ?_ ?_ _ _ ⟨xs, h, rfl⟩
  · rintro ⟨i, f⟩ x xs ⟨xs0, hy, hx⟩
    simp only at hx hy
    generalize hj : (if f then k else n - 1) = j at hx
    have hlen : j < xs0.length := by
      apply Classical.byContradiction
      intro hlt
      rw [every_short n j xs0 (by omega)] at hx
      simp at hx
    obtain ⟨s', es, h'⟩ := skipLoop_enough j hy (by omega)
    cases hd : xs0.drop j with
    | nil =>
      have := congrArg List.length hd
      simp at this
      omega
    | cons y ys =>
      rw [every_drop n j xs0 hd] at hx
      simp only [List.cons.injEq] at hx
      rw [hd] at h'
      obtain ⟨s'', e', h''⟩ := h'.read_cons
      simp only [sharded, shardedRead, hj, es, e', hx.1, true_and]
      exact ⟨ys, h'', by simpa using hx.2⟩
  · rintro ⟨i, f⟩ ⟨xs0, hy, hx⟩
    simp only at hx hy
    generalize hj : (if f then k else n - 1) = j at hx
    by_cases hlen : j ≤ xs0.length
    · obtain ⟨s', es, h'⟩ := skipLoop_enough j hy hlen
      cases hd : xs0.drop j with
      | cons y ys => rw [every_drop n j xs0 hd] at hx; simp at hx
      | nil =>
        rw [hd] at h'
        obtain ⟨s'', e', h''⟩ := h'.read_nil
        simp only [sharded, shardedRead, hj, es, e', true_and]
        exact ⟨[], h'', by cases n - 1 <;> simp [every]⟩
    · obtain ⟨s', es, h'⟩ := skipLoop_short j ht hy (by omega)
      have h0 : ([] : List α) = every n (if false then k else n - 1) [] := by
        simp; cases n - 1 <;> rfl
      match t, ht with
      | .ok (some x), ht => exact absurd rfl (ht x)
      | .ok none, _ =>
        simp only [sharded, shardedRead, hj, es, skipTail, true_and]; exact ⟨[], h', h0⟩
      | .err e', _ =>
        simp only [sharded, shardedRead, hj, es, skipTail, true_and]; exact ⟨[], h', h0⟩
      | .ub w, _ =>
        simp only [sharded, shardedRead, hj, es, skipTail, true_and]; exact ⟨[], h', h0⟩

end Machine
end Mlio
