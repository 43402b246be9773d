import Verif.Spec.Retry
import Verif.Proofs.Instances
import Verif.Proofs.Shuffling
import Verif.Proofs.Sampling
import Verif.Proofs.CoreReader
import Verif.Proofs.Batching
import Verif.Proofs.Sessions

/-!
# Reading again after an error: proofs
-/

namespace Mlio
open Spec Machine

variable {α : Type}

/-- An invariant under which the outcome `t` is for ever. -/
structure Lasts (m : Machine α) (t : Res (Option α)) (I : m.σ → Prop) : Prop where
  keep : ∀ s, I s → I (m.read s).2
  last : ∀ s, I s → (m.read s).1 = t → m.Yields (m.read s).2 [] t

theorem yields_nil_iff {m : Machine α} {s : m.σ} {t : Res (Option α)} :
    m.Yields s [] t ↔ (m.read s).1 = t ∧ m.Yields (m.read s).2 [] t := by
  constructor
  · intro h
    refine ⟨?_, fun n => ?_⟩
    · simpa [outs] using h 1
    · have := h (n + 1)
      simp only [outs, List.map_nil, List.nil_append, List.replicate_succ, List.take_succ_cons, List.cons.injEq] at this ⊢
      exact this.2
  · rintro ⟨h1, h2⟩ n
    cases n with
    | zero => rfl
    | succ n =>
      have := h2 n
      simp only [outs, List.map_nil, List.nil_append, List.replicate_succ, List.take_succ_cons, List.cons.injEq] at this ⊢
      exact ⟨h1, this⟩

theorem Lasts.dead {m : Machine α} {t : Res (Option α)} {I : m.σ → Prop} (h : Lasts m t I) {s : m.σ} (hs : I s)
    (ht : (m.read s).1 = t) : m.Yields s [] t :=
  yields_nil_iff.2 ⟨ht, h.last s hs ht⟩

theorem outs_length (m : Machine α) (n : Nat) (s : m.σ) : (m.outs n s).length = n := by
  induction n generalizing s with
  | zero => rfl
  | succ n ih => simp [outs, ih]

theorem Lasts.outs {m : Machine α} {t : Res (Option α)} {I : m.σ → Prop} (h : Lasts m t I) : ∀ (i j : Nat) (s : m.σ), I s → i ≤ j →
    (m.outs (j + 1) s)[i]? = some t → (m.outs (j + 1) s)[j]? = some t
  | 0, j, s, hs, _, ht => by
    have h1 : (m.read s).1 = t := by simpa [Machine.outs] using ht
    have := h.dead hs h1 (j + 1)
    rw [this]
    simp
  | i + 1, 0, s, _, hij, _ => by omega
  | i + 1, j + 1, s, hs, hij, ht => by
    have e : m.outs (j + 1 + 1) s = (m.read s).1 :: m.outs (j + 1) (m.read s).2 := rfl
    rw [e, List.getElem?_cons_succ] at ht ⊢
    exact h.outs i j _ (h.keep s hs) (by omega) ht

theorem outs_append (m : Machine α) (k : Nat) : ∀ (n : Nat) (s : m.σ), ∃ l, m.outs (n + k) s = m.outs n s ++ l
  | 0, s => ⟨m.outs (0 + k) s, by simp [outs]⟩
  | n + 1, s => by
    obtain ⟨l, hl⟩ := outs_append m k n (m.read s).2
    refine ⟨l, ?_⟩
    rw [show n + 1 + k = (n + k) + 1 by omega]
    simp [outs, hl]

theorem outs_getElem? (m : Machine α) (s : m.σ) (i j : Nat) (h : i ≤ j) : (m.outs (j + 1) s)[i]? = (m.outs (i + 1) s)[i]? := by
  obtain ⟨l, hl⟩ := outs_append m (j - i) (i + 1) s
  rw [show j + 1 = i + 1 + (j - i) by omega, hl, List.getElem?_append_left (by rw [outs_length]; omega)]

/-- Once the outcome is `t`, it stays. -/
def Stays (m : Machine α) (t : Res (Option α)) (s : m.σ) : Prop :=
  ∀ i j, i ≤ j → (m.outs (j + 1) s)[i]? = some t → (m.outs (j + 1) s)[j]? = some t

theorem stays_keep {m : Machine α} {t : Res (Option α)} {s : m.σ} (hs : Stays m t s) : Stays m t (m.read s).2 := by
  intro i j hij hi
  have := hs (i + 1) (j + 1) (by omega)
  rw [show m.outs (j + 1 + 1) s = (m.read s).1 :: m.outs (j + 1) (m.read s).2 from rfl, List.getElem?_cons_succ,
    List.getElem?_cons_succ] at this
  exact this hi

theorem stays_last {m : Machine α} {t : Res (Option α)} {s : m.σ} (hs : Stays m t s) (ht : (m.read s).1 = t) :
    m.Yields (m.read s).2 [] t := by
  intro n
  rw [List.map_nil, List.nil_append, List.take_replicate, Nat.min_self]
  apply List.ext_getElem?
  intro k
  by_cases hk : k < n
  · have h1 := hs 0 (k + 1) (by omega) (by simp [outs, ht])
    rw [show m.outs (k + 1 + 1) s = (m.read s).1 :: m.outs (k + 1) (m.read s).2 from rfl, List.getElem?_cons_succ] at h1
    rw [List.getElem?_replicate, if_pos hk, ← h1, show n = (n - 1) + 1 by omega]
    exact outs_getElem? m _ k (n - 1) (by omega)
  · rw [List.getElem?_eq_none (by rw [outs_length]; omega), List.getElem?_eq_none (by simp; omega)]

/-! ## The readers that wrap another one -/

theorem base_lasts {m : Machine α} {e : Err} {I : m.σ → Prop} (h : Lasts m (.err e) I) : Lasts m.base (.err e) (fun s => I s.1) := by
  constructor
  · rintro ⟨s, p⟩ hs
    cases p with
    | some x => exact hs
    | none => exact h.keep s hs
  · rintro ⟨s, p⟩ hs ht
    cases p with
    | some x => simp [base, baseRead] at ht
    | none => exact base_yields (h.last s hs ht)

theorem skip_dead {m : Machine α} {e : Err} {s : m.σ} (h : m.Yields s [] (.err e)) (n : Nat) :
    skipLoop m (n + 1) s = (.err e, (m.read s).2) := by
  have := (yields_nil_iff.1 h).1
  rcases hr : m.read s with ⟨o, s'⟩
  rw [hr] at this
  simp only at this
  subst this
  simp [skipLoop, hr]

theorem skip_lasts {m : Machine α} {e : Err} {I : m.σ → Prop} (h : Lasts m (.err e) I) : ∀ (n : Nat) (s : m.σ), I s →
    I (skipLoop m n s).2 ∧ ((skipLoop m n s).1 = .err e → m.Yields (skipLoop m n s).2 [] (.err e))
  | 0, s, hs => by simp [skipLoop, hs]
  | n + 1, s, hs => by
    have hk := h.keep s hs
    have hl := h.last s hs
    rcases hr : m.read s with ⟨o, s'⟩
    rw [hr] at hk hl
    simp only [skipLoop, hr]
    rcases o with (_ | x) | e' | w
    · simp [hk]
    · exact skip_lasts h n s' hk
    · refine ⟨hk, fun he => hl ?_⟩
      simpa using he
    · simp [hk]

theorem ranged_dead {m : Machine α} {e : Err} {skip : Nat} {num : Option Nat} : ∀ (st : RangedState m.σ), m.Yields st.inner [] (.err e) →
    st.firstRead = false → st.stop num = false → (ranged skip num m).Yields st [] (.err e) := by
  intro st h1 h2 h3
  refine yields_of (m := ranged skip num m) (fun s xs => m.Yields s.inner [] (.err e) ∧ s.firstRead = false ∧ s.stop num = false ∧ xs = []) _ ?_ ?_ st [] ⟨h1, h2, h3, rfl⟩
  · rintro s x xs ⟨_, _, _, h⟩
    cases h
  · rintro s ⟨k1, k2, k3, _⟩
    obtain ⟨k4, k5⟩ := yields_nil_iff.1 k1
    rcases hr : m.read s.inner with ⟨o, s'⟩
    rw [hr] at k4 k5
    simp only at k4 k5
    subst k4
    have e1 : (ranged skip num m).read s = (.err e, { s with inner := s' }) := by
      simp [ranged, rangedRead, k2, rangedReadRest, k3, hr]
    rw [e1]
    exact ⟨rfl, k5, k2, k3, rfl⟩

theorem rangedRest_lasts {m : Machine α} {e : Err} {I : m.σ → Prop} (h : Lasts m (.err e) I) (skip : Nat) (num : Option Nat)
    (st : RangedState m.σ) (hs : I st.inner) (hf : st.firstRead = false) :
    I (rangedReadRest m num st).2.inner ∧
    ((rangedReadRest m num st).1 = .err e → (ranged skip num m).Yields (rangedReadRest m num st).2 [] (.err e)) := by
  have hk := h.keep _ hs
  have hl := h.last _ hs
  unfold rangedReadRest
  by_cases hst : st.stop num
  · simp [hst, hs]
  · rcases hr : m.read st.inner with ⟨o, s'⟩
    rw [hr] at hk hl
    simp only [hst, Bool.false_eq_true, if_false]
    rcases o with (_ | x) | e' | w
    · simp [hk]
    · simp [hk]
    · refine ⟨hk, fun he => ?_⟩
      refine ranged_dead _ (hl (by simpa using he)) hf ?_
      simpa [RangedState.stop] using hst
    · simp [hk]

theorem ranged_lasts {m : Machine α} {e : Err} {I : m.σ → Prop} (h : Lasts m (.err e) I) (skip : Nat) (num : Option Nat) (hn : num ≠ some 0) :
    Lasts (ranged skip num m) (.err e) (fun s => I s.inner ∧ (s.firstRead = true → s.numRead = 0)) := by
  have key : ∀ s : RangedState m.σ, I s.inner → (s.firstRead = true → s.numRead = 0) →
      (I (rangedRead m skip num s).2.inner ∧ (rangedRead m skip num s).2.firstRead = false) ∧
      ((rangedRead m skip num s).1 = .err e → (ranged skip num m).Yields (rangedRead m skip num s).2 [] (.err e)) := by
    intro s hs h0
    have hfr : ∀ t : RangedState m.σ, t.firstRead = false → (rangedReadRest m num t).2.firstRead = false := by
      intro t ht
      unfold rangedReadRest
      split
      · exact ht
      · split <;> exact ht
    by_cases hf : s.firstRead = true
    · obtain ⟨k1, k2⟩ := skip_lasts h skip s.inner hs
      rcases hr : skipLoop m skip s.inner with ⟨o, i⟩
      rw [hr] at k1 k2
      simp only [rangedRead, hf, if_true, hr]
      rcases o with (_ | _) | e' | w
      · simp [k1]
      · obtain ⟨r1, r2⟩ := rangedRest_lasts h skip num { s with inner := i, firstRead := false } k1 rfl
        exact ⟨⟨r1, hfr _ rfl⟩, r2⟩
      · refine ⟨⟨k1, rfl⟩, fun he => ranged_dead _ (k2 (by simpa using he)) rfl ?_⟩
        have := h0 hf
        cases num with
        | none => rfl
        | some n =>
          simp only [RangedState.stop, this]
          have : n ≠ 0 := fun hc => hn (by rw [hc])
          simp
          omega
      · simp [k1]
    · have hf : s.firstRead = false := by simpa using hf
      simp only [rangedRead, hf, Bool.false_eq_true, if_false]
      obtain ⟨r1, r2⟩ := rangedRest_lasts h skip num s hs hf
      exact ⟨⟨r1, hfr _ hf⟩, r2⟩
  constructor
  · rintro s ⟨hs, h0⟩
    obtain ⟨⟨k1, k2⟩, _⟩ := key s hs h0
    exact ⟨k1, fun hc => by simp [ranged, k2] at hc⟩
  · rintro s ⟨hs, h0⟩ ht
    exact (key s hs h0).2 ht

theorem sharded_dead {m : Machine α} {e : Err} {n k : Nat} (st : m.σ × Bool) (h1 : m.Yields st.1 [] (.err e)) :
    (sharded n k m).Yields st [] (.err e) := by
  refine yields_of (m := sharded n k m) (fun s xs => m.Yields s.1 [] (.err e) ∧ xs = []) _ ?_ ?_ st [] ⟨h1, rfl⟩
  · rintro s x xs ⟨_, h⟩
    cases h
  · rintro s ⟨k1, _⟩
    obtain ⟨k4, k5⟩ := yields_nil_iff.1 k1
    have e1 : (sharded n k m).read s = (.err e, ((m.read s.1).2, false)) := by
      simp only [sharded, shardedRead]
      cases hc : (if s.2 = true then k else n - 1) with
      | zero => simp [skipLoop, k4]
      | succ c => rw [skip_dead k1]
    rw [e1]
    exact ⟨rfl, k5, rfl⟩

theorem sharded_lasts {m : Machine α} {e : Err} {I : m.σ → Prop} (h : Lasts m (.err e) I) (n k : Nat) :
    Lasts (sharded n k m) (.err e) (fun s => I s.1) := by
  have key : ∀ s : m.σ × Bool, I s.1 → I (shardedRead m n k s).2.1 ∧
      ((shardedRead m n k s).1 = .err e → m.Yields (shardedRead m n k s).2.1 [] (.err e)) := by
    intro s hs
    unfold shardedRead
    obtain ⟨k1, k2⟩ := skip_lasts h (if s.2 = true then k else n - 1) s.1 hs
    rcases hr : skipLoop m (if s.2 = true then k else n - 1) s.1 with ⟨o, i⟩
    rw [hr] at k1 k2
    rcases o with (_ | _) | e' | w
    · simp [k1]
    · exact ⟨h.keep i k1, fun he => h.last i k1 he⟩
    · exact ⟨k1, fun he => k2 (by simpa using he)⟩
    · simp [k1]
  exact ⟨fun s hs => (key s hs).1, fun s hs ht => sharded_dead _ ((key s hs).2 ht)⟩

theorem shuffled_dead {m : Machine α} {e : Err} {R : Rng} {p : ShuffleParams} (st : ShuffledState m.σ R.G α)
    (h1 : m.Yields st.inner [] (.err e)) (h2 : p.effWindow ≠ 1 → st.innerHas = true ∧ st.buffer.length < p.effWindow) :
    (shuffled R p m).Yields st [] (.err e) := by
  refine yields_of (m := shuffled R p m) (fun s xs => m.Yields s.inner [] (.err e) ∧
    (p.effWindow ≠ 1 → s.innerHas = true ∧ s.buffer.length < p.effWindow) ∧ xs = []) _ ?_ ?_ st [] ⟨h1, h2, rfl⟩
  · rintro s x xs ⟨_, _, h⟩
    cases h
  · rintro s ⟨k1, k2, _⟩
    obtain ⟨k4, k5⟩ := yields_nil_iff.1 k1
    rcases hr : m.read s.inner with ⟨o, s'⟩
    rw [hr] at k4 k5
    simp only at k4 k5
    subst k4
    by_cases hw : p.effWindow = 1
    · have e1 : (shuffled R p m).read s = (.err e, { s with inner := s' }) := by
        simp [shuffled, shuffledRead, hw, hr]
      rw [e1]
      exact ⟨rfl, k5, fun h => absurd hw h, rfl⟩
    · obtain ⟨h3, h4⟩ := k2 hw
      obtain ⟨c, hc⟩ : ∃ c, p.effWindow - s.buffer.length = c + 1 := ⟨p.effWindow - s.buffer.length - 1, by omega⟩
      have e1 : (shuffled R p m).read s = (.err e, { s with inner := s' }) := by
        simp [shuffled, shuffledRead, hw, hc, shuffleFill, h3, hr]
      rw [e1]
      exact ⟨rfl, k5, fun _ => ⟨h3, h4⟩, rfl⟩

theorem fill_lasts {m : Machine α} {e : Err} {I : m.σ → Prop} (h : Lasts m (.err e) I) (R : Rng) : ∀ (room : Nat)
    (s : ShuffledState m.σ R.G α), I s.inner →
    I (shuffleFill R m room s).2.inner ∧
    ((shuffleFill R m room s).1 = .err e → m.Yields (shuffleFill R m room s).2.inner [] (.err e) ∧
      (shuffleFill R m room s).2.innerHas = true ∧ (shuffleFill R m room s).2.buffer.length < s.buffer.length + room)
  | 0, s, hs => by simp [shuffleFill, hs]
  | room + 1, s, hs => by
    have hk := h.keep _ hs
    have hl := h.last _ hs
    unfold shuffleFill
    by_cases hi : s.innerHas = true
    · rw [if_pos hi]
      rcases hr : m.read s.inner with ⟨o, i⟩
      rw [hr] at hk hl
      rcases o with (_ | x) | e' | w
      · simp [hk]
      · obtain ⟨r1, r2⟩ := fill_lasts h R room { s with inner := i, buffer := s.buffer ++ [x] } hk
        refine ⟨r1, fun he => ?_⟩
        obtain ⟨r3, r4, r5⟩ := r2 he
        refine ⟨r3, r4, ?_⟩
        simp only [List.length_append, List.length_singleton] at r5
        have : s.buffer.length + 1 + room = s.buffer.length + (room + 1) := by omega
        rw [← this]
        exact r5
      · exact ⟨hk, fun he => ⟨hl (by simpa using he), hi, by simp⟩⟩
      · simp [hk]
    · simp [hi, hs]

theorem popRandom_inner {σ : Type} (R : Rng) (p : ShuffleParams) (s : ShuffledState σ R.G α) :
    (popRandom R p s).2.inner = s.inner ∧ ∀ e, (popRandom R p s).1 ≠ .err e := by
  unfold popRandom
  simp only
  split <;> simp

theorem shuffled_lasts {m : Machine α} {e : Err} {I : m.σ → Prop} (h : Lasts m (.err e) I) (R : Rng) (p : ShuffleParams) :
    Lasts (shuffled R p m) (.err e) (fun s => I s.inner) := by
  have key : ∀ s : ShuffledState m.σ R.G α, I s.inner → I (shuffledRead R p m s).2.inner ∧
      ((shuffledRead R p m s).1 = .err e → (shuffled R p m).Yields (shuffledRead R p m s).2 [] (.err e)) := by
    intro s hs
    unfold shuffledRead
    by_cases hw : p.effWindow = 1
    · simp only [hw, if_true]
      exact ⟨h.keep _ hs, fun he => shuffled_dead _ (h.last _ hs he) fun hc => absurd hw hc⟩
    · simp only [hw, if_false]
      obtain ⟨k1, k2⟩ := fill_lasts h R (p.effWindow - s.buffer.length) s hs
      rcases hr : shuffleFill R m (p.effWindow - s.buffer.length) s with ⟨o, s'⟩
      rw [hr] at k1 k2
      rcases o with _ | e' | w
      · simp only
        split
        · simp [k1]
        · split
          · obtain ⟨q1, q2⟩ := popRandom_inner R p s'
            exact ⟨by rw [q1]; exact k1, fun he => absurd he (q2 e)⟩
          · simp [k1]
      · refine ⟨k1, fun he => ?_⟩
        obtain ⟨r1, r2, r3⟩ := k2 (by simpa using he)
        refine shuffled_dead _ r1 fun _ => ⟨r2, ?_⟩
        simp only at r3
        have : 0 < p.effWindow - s.buffer.length := by
          rcases Nat.eq_zero_or_pos (p.effWindow - s.buffer.length) with h0 | h0
          · rw [h0] at hr
            simp [shuffleFill] at hr
          · exact h0
        show s'.buffer.length < p.effWindow
        omega
      · simp [k1]
  exact ⟨fun s hs => (key s hs).1, fun s hs ht => (key s hs).2 ht⟩

/-- The error lasts in every epoch. -/
def LastsAlways (m : Machine α) (e : Err) : Prop :=
  ∃ J : m.σ → Prop, (∀ s, s = m.init ∨ (∃ u, s = m.reset u) → J s) ∧ Lasts m (.err e) J

theorem ite_machine {P : Machine α → Prop} {c : Prop} [Decidable c] {a b : Machine α} (h1 : P a) (h2 : P b) : P (if c then a else b) := by
  split <;> assumption

/-- All the readers but the sampling one. -/
theorem make_lasts (R : Rng) (o : ReadOptions) (core r : Machine α) {e : Err} (h : LastsAlways core e)
    (hs : o.sampleRatio = none) (hn : o.toRead ≠ some 0) (hm : makeInstanceReader R o core = some r) : LastsAlways r e := by
  have w0 : LastsAlways core.base e := by
    obtain ⟨J, h1, h2⟩ := h
    refine ⟨_, ?_, base_lasts h2⟩
    rintro s (rfl | ⟨u, rfl⟩)
    · exact h1 _ (.inl rfl)
    · exact h1 _ (.inr ⟨_, rfl⟩)
  have w1 : ∀ m : Machine α, LastsAlways m e → LastsAlways (ranged o.toSkip o.toRead m).base e := by
    rintro m ⟨J, h1, h2⟩
    refine ⟨_, ?_, base_lasts (ranged_lasts h2 o.toSkip o.toRead hn)⟩
    rintro s (rfl | ⟨u, rfl⟩)
    · exact ⟨h1 _ (.inl rfl), fun _ => rfl⟩
    · exact ⟨h1 _ (.inr ⟨_, rfl⟩), fun _ => rfl⟩
  have w2 : ∀ m : Machine α, LastsAlways m e → LastsAlways (sharded o.numShards o.shardIndex m).base e := by
    rintro m ⟨J, h1, h2⟩
    refine ⟨_, ?_, base_lasts (sharded_lasts h2 o.numShards o.shardIndex)⟩
    rintro s (rfl | ⟨u, rfl⟩)
    · exact h1 _ (.inl rfl)
    · exact h1 _ (.inr ⟨_, rfl⟩)
  have w3 : ∀ (p : ShuffleParams) (m : Machine α), LastsAlways m e → LastsAlways (shuffled R p m).base e := by
    rintro p m ⟨J, h1, h2⟩
    refine ⟨_, ?_, base_lasts (shuffled_lasts h2 R p)⟩
    rintro s (rfl | ⟨u, rfl⟩)
    · exact h1 _ (.inl rfl)
    · exact h1 _ (.inr ⟨_, rfl⟩)
  simp only [makeInstanceReader, hs] at hm
  have w1' := ite_machine (P := fun m => LastsAlways m e) (c := o.toSkip > 0 ∨ o.toRead.isSome) (w1 _ w0) w0
  generalize (if o.toSkip > 0 ∨ o.toRead.isSome then (ranged o.toSkip o.toRead core.base).base else core.base) = m1 at hm w1'
  split at hm
  · cases hm
  · have w2' := ite_machine (P := fun m => LastsAlways m e) (c := o.numShards > 1) (w2 _ w1') w1'
    generalize (if o.numShards > 1 then (sharded o.numShards o.shardIndex m1).base else m1) = m2 at hm w2'
    cases hsh : o.shuffle with
    | none =>
      simp only [hsh, Option.some.injEq] at hm
      subst hm
      exact w2'
    | some p =>
      simp only [hsh, Option.some.injEq] at hm
      subst hm
      exact w3 p m2 w2'

theorem lasts_of_base {m : Machine α} {e : Err} (h : LastsAlways m.base e) : LastsAlways m e := by
  obtain ⟨J, h1, h2⟩ := h
  refine ⟨fun s => J (s, none), ?_, ?_, ?_⟩
  · rintro s (rfl | ⟨u, rfl⟩)
    · exact h1 _ (.inl rfl)
    · exact h1 _ (.inr ⟨(u, none), rfl⟩)
  · intro s hs
    exact h2.keep (s, none) hs
  · intro s hs ht
    exact yields_of_base (h2.last (s, none) hs ht)

/-! ## The reader of the data stores -/

section
variable {rm : Machine Record} {stores : List (Res (Option rm.σ))}

/-- The state of the record reader, if there is one, meets `I`. -/
def RrOk (I : rm.σ → Prop) (s : CoreState rm.σ) : Prop := ∀ r, s.rr = some r → I r

/-- Reading a record from here fails with `e` for ever, without a change of the data store. -/
def RecDead (stores : List (Res (Option rm.σ))) (e : Err) (s : CoreState rm.σ) : Prop :=
  (∃ r, s.rr = some r ∧ rm.Yields r [] (.err e)) ∨
  ((∀ r, s.rr = some r → rm.Yields r [] (.ok none)) ∧ stores[s.iter]? = some (Res.err e) ∧ s.store = some s.iter)

theorem initNext_ok (I : rm.σ → Prop) (hst : ∀ (i : Nat) r, stores[i]? = some (Res.ok (some r)) → I r) (s : CoreState rm.σ) (hs : RrOk I s) :
    RrOk I (initNext stores s).2 ∧ (∀ e, (initNext stores s).1 = .err e → stores[s.iter]? = some (Res.err e) ∧
      (initNext stores s).2.iter = s.iter ∧ (initNext stores s).2.store = some s.iter ∧ (initNext stores s).2.rr = s.rr) ∧
    (initNext stores s).2.corrupt = s.corrupt := by
  unfold initNext
  cases h : stores[s.iter]? with
  | none => simp [RrOk]
  | some q =>
    rcases q with (_ | r) | e | w
    · simp [RrOk]
    · refine ⟨fun r' hr' => ?_, fun e' he => by simp at he, rfl⟩
      simp only [Option.some.injEq] at hr'
      subst hr'
      exact hst _ _ h
    · refine ⟨hs, fun e' he => ?_, rfl⟩
      simp only [Res.err.injEq] at he
      subst he
      exact ⟨rfl, rfl, rfl, rfl⟩
    · exact ⟨hs, fun e' he => by simp at he, rfl⟩

theorem recLoop_lasts {I : rm.σ → Prop} {e : Err} (he : e ≠ .diverges) (h1 : Lasts rm (.err e) I) (h2 : Lasts rm (.ok none) I)
    (hst : ∀ (i : Nat) r, stores[i]? = some (Res.ok (some r)) → I r) : ∀ (fuel : Nat) (s : CoreState rm.σ), RrOk I s →
    RrOk I (recLoop rm stores fuel s).2 ∧ ((recLoop rm stores fuel s).1 = .err e → RecDead stores e (recLoop rm stores fuel s).2) ∧
    (recLoop rm stores fuel s).2.corrupt = s.corrupt
  | 0, s, hs => ⟨hs, fun hc => by simp [recLoop] at hc; exact absurd hc.symm he, rfl⟩
  | fuel + 1, s, hs => by
    unfold recLoop
    cases hr : s.rr with
    | none => simp [hs]
    | some r =>
      have hk := h1.keep r (hs r hr)
      have hl1 := h1.last r (hs r hr)
      have hl2 := h2.last r (hs r hr)
      simp only
      rcases hrd : rm.read r with ⟨o, r'⟩
      rw [hrd] at hk hl1 hl2
      have hok : RrOk I { s with rr := some r' } := fun q hq => by simp only [Option.some.injEq] at hq; subst hq; exact hk
      rcases o with (_ | x) | e' | w
      · simp only
        obtain ⟨k1, k2, k3⟩ := initNext_ok (stores := stores) I hst { s with rr := some r' } hok
        rcases hi : initNext stores { s with rr := some r' } with ⟨o', s'⟩
        rw [hi] at k1 k2 k3
        rcases o' with (_ | _) | e' | w
        · exact ⟨k1, fun hc => by simp at hc, k3⟩
        · obtain ⟨q1, q2, q3⟩ := recLoop_lasts he h1 h2 hst fuel s' k1
          exact ⟨q1, q2, q3.trans k3⟩
        · refine ⟨k1, fun hc => ?_, k3⟩
          simp only [Res.err.injEq] at hc
          subst hc
          obtain ⟨q1, q2, q3, q4⟩ := k2 _ rfl
          refine .inr ⟨fun q hq => ?_, ?_, ?_⟩
          · simp only at q4 hq
            rw [q4] at hq
            simp only [Option.some.injEq] at hq
            subst hq
            exact hl2 rfl
          · simp only at q1 q2 ⊢
            rw [q2]; exact q1
          · simp only at q2 q3 ⊢
            rw [q2]; exact q3
        · exact ⟨k1, fun hc => by simp at hc, k3⟩
      · refine ⟨fun q hq => ?_, fun hc => by simp at hc, rfl⟩
        simp only [Option.some.injEq] at hq
        subst hq
        exact hk
      · refine ⟨hok, fun hc => ?_, rfl⟩
        simp only [Res.err.injEq] at hc
        subst hc
        exact .inl ⟨r', rfl, hl1 rfl⟩
      · exact ⟨hok, fun hc => by simp at hc, rfl⟩

theorem readRecord_lasts {I : rm.σ → Prop} {e : Err} (he : e ≠ .diverges) (h1 : Lasts rm (.err e) I) (h2 : Lasts rm (.ok none) I)
    (hst : ∀ (i : Nat) r, stores[i]? = some (Res.ok (some r)) → I r) (s : CoreState rm.σ) (hs : RrOk I s) :
    RrOk I (readRecord rm stores s).2 ∧ ((readRecord rm stores s).1 = .err e → RecDead stores e (readRecord rm stores s).2) ∧
    (readRecord rm stores s).2.corrupt = s.corrupt := by
  unfold readRecord
  cases hr : s.rr with
  | some r => exact recLoop_lasts he h1 h2 hst _ s hs
  | none =>
    simp only
    obtain ⟨k1, k2, k3⟩ := initNext_ok (stores := stores) I hst s hs
    rcases hi : initNext stores s with ⟨o', s'⟩
    rw [hi] at k1 k2 k3
    rcases o' with (_ | _) | e' | w
    · exact ⟨k1, fun hc => by simp at hc, k3⟩
    · obtain ⟨q1, q2, q3⟩ := recLoop_lasts he h1 h2 hst (stores.length + 1) s' k1
      exact ⟨q1, q2, q3.trans k3⟩
    · refine ⟨k1, fun hc => ?_, k3⟩
      simp only [Res.err.injEq] at hc
      subst hc
      obtain ⟨q1, q2, q3, q4⟩ := k2 _ rfl
      simp only at q1 q2 q3 q4
      refine .inr ⟨fun q hq => ?_, ?_, ?_⟩
      · simp only at hq
        rw [q4, hr] at hq
        cases hq
      · simp only; rw [q2]; exact q1
      · simp only; rw [q2]; exact q3
    · exact ⟨k1, fun hc => by simp at hc, k3⟩

/-- In such a state, reading a record fails with the error, the state stays such, and the store is known if it was. -/
theorem readRecord_dead {e : Err} (s : CoreState rm.σ) (h : RecDead stores e s) :
    (readRecord rm stores s).1 = .err e ∧ RecDead stores e (readRecord rm stores s).2 ∧
    (readRecord rm stores s).2.store = s.store ∧ (readRecord rm stores s).2.corrupt = s.corrupt := by
  rcases h with ⟨r, hr, hy⟩ | ⟨hr, hi, hst⟩
  · obtain ⟨k1, k2⟩ := yields_nil_iff.1 hy
    rcases hrd : rm.read r with ⟨o, r'⟩
    rw [hrd] at k1 k2
    simp only at k1 k2
    subst k1
    have e1 : readRecord rm stores s = (.err e, { s with rr := some r' }) := by
      simp [readRecord, hr, recLoop, hrd]
    rw [e1]
    exact ⟨rfl, .inl ⟨r', rfl, k2⟩, rfl, rfl⟩
  · cases hq : s.rr with
    | none =>
      have e1 : readRecord rm stores s = (.err e, { s with instIdx := 0, recIdx := 0, store := some s.iter }) := by
        simp [readRecord, hq, initNext, hi]
      rw [e1]
      refine ⟨rfl, .inr ⟨fun r h => ?_, hi, rfl⟩, hst.symm, rfl⟩
      simp only [hq] at h
      cases h
    | some r =>
      obtain ⟨k1, k2⟩ := yields_nil_iff.1 (hr r hq)
      rcases hrd : rm.read r with ⟨o, r'⟩
      rw [hrd] at k1 k2
      simp only at k1 k2
      subst k1
      have e1 : readRecord rm stores s = (.err e, { s with rr := some r', instIdx := 0, recIdx := 0, store := some s.iter }) := by
        simp [readRecord, hq, recLoop, hrd, initNext, hi]
      rw [e1]
      refine ⟨rfl, .inr ⟨fun q h => ?_, hi, rfl⟩, hst.symm, rfl⟩
      simp only [Option.some.injEq] at h
      subst h
      exact k2

theorem splitLoop_lasts {I : rm.σ → Prop} {e : Err} (he : e ≠ .diverges) (h1 : Lasts rm (.err e) I) (h2 : Lasts rm (.ok none) I)
    (hst : ∀ (i : Nat) r, stores[i]? = some (Res.ok (some r)) → I r) : ∀ (fuel : Nat) (s : CoreState rm.σ) (acc : List Bytes), RrOk I s →
    RrOk I (splitLoop rm stores fuel s acc).2 ∧ ((splitLoop rm stores fuel s acc).1 = .err e →
      (RecDead stores e (splitLoop rm stores fuel s acc).2 ∧ (splitLoop rm stores fuel s acc).2.corrupt = s.corrupt) ∨
      ((splitLoop rm stores fuel s acc).2.corrupt = true ∧ e = .corruptRecord))
  | 0, s, acc, hs => ⟨hs, fun hc => by simp [splitLoop] at hc; exact absurd hc.symm he⟩
  | fuel + 1, s, acc, hs => by
    unfold splitLoop
    obtain ⟨k1, k2, k3⟩ := readRecord_lasts (stores := stores) he h1 h2 hst s hs
    rcases hr : readRecord rm stores s with ⟨o, s'⟩
    rw [hr] at k1 k2 k3
    rcases o with (_ | x) | e' | w
    · refine ⟨k1, fun hc => .inr ⟨rfl, ?_⟩⟩
      simpa [throwCorrupt] using hc.symm
    · simp only
      split
      · obtain ⟨q1, q2⟩ := splitLoop_lasts he h1 h2 hst fuel s' (acc ++ [x.payload]) k1
        refine ⟨q1, fun hc => ?_⟩
        rcases q2 hc with ⟨q3, q4⟩ | q3
        · exact .inl ⟨q3, q4.trans k3⟩
        · exact .inr q3
      · split
        · exact ⟨k1, fun hc => by simp at hc⟩
        · refine ⟨k1, fun hc => .inr ⟨rfl, ?_⟩⟩
          simpa [throwCorrupt] using hc.symm
    · exact ⟨k1, fun hc => .inl ⟨k2 (by simpa using hc), k3⟩⟩
    · exact ⟨k1, fun hc => by simp at hc⟩

theorem readPayload_lasts {I : rm.σ → Prop} {e : Err} (he : e ≠ .diverges) (h1 : Lasts rm (.err e) I) (h2 : Lasts rm (.ok none) I)
    (hst : ∀ (i : Nat) r, stores[i]? = some (Res.ok (some r)) → I r) (fuel : Nat) (s : CoreState rm.σ) (hs : RrOk I s) :
    RrOk I (readPayload rm stores fuel s).2 ∧ ((readPayload rm stores fuel s).1 = .err e →
      (RecDead stores e (readPayload rm stores fuel s).2 ∧ (readPayload rm stores fuel s).2.corrupt = false) ∨
      ((readPayload rm stores fuel s).2.corrupt = true ∧ e = .corruptRecord)) := by
  unfold readPayload
  by_cases hc : s.corrupt
  · simp only [hc, if_true]
    refine ⟨hs, fun h => .inr ⟨rfl, ?_⟩⟩
    simpa [throwCorrupt] using h.symm
  · have hc : s.corrupt = false := by simpa using hc
    simp only [hc, Bool.false_eq_true, if_false]
    obtain ⟨k1, k2, k3⟩ := readRecord_lasts (stores := stores) he h1 h2 hst s hs
    rcases hr : readRecord rm stores s with ⟨o, s'⟩
    rw [hr] at k1 k2 k3
    rcases o with (_ | x) | e' | w
    · exact ⟨k1, fun hc => by simp at hc⟩
    · simp only
      split
      · exact ⟨k1, fun hc => by simp at hc⟩
      · split
        · obtain ⟨q1, q2⟩ := splitLoop_lasts (stores := stores) he h1 h2 hst fuel s' [x.payload] k1
          refine ⟨q1, fun h => ?_⟩
          rcases q2 h with ⟨q3, q4⟩ | q3
          · exact .inl ⟨q3, q4.trans (k3.trans hc)⟩
          · exact .inr q3
        · refine ⟨k1, fun h => .inr ⟨rfl, ?_⟩⟩
          simpa [throwCorrupt] using h.symm
    · exact ⟨k1, fun h => .inl ⟨k2 (by simpa using h), k3.trans hc⟩⟩
    · exact ⟨k1, fun hc => by simp at hc⟩

/-- What reading an instance fails with for ever, if reading a record payload fails with `e` for ever. -/
theorem core_dead {e e' : Err} {fuel : Nat} (he : (coreHandle e s).1 = .err e') (s0 : CoreState rm.σ)
    (hd : (RecDead stores e s0 ∧ s0.corrupt = false) ∨ (s0.corrupt = true ∧ e = .corruptRecord)) (hs0 : s0.store = s.store) :
    (coreReader rm stores fuel).Yields s0 [] (.err e') := by
  have hh : ∀ t : CoreState rm.σ, t.store = s.store → coreHandle e t = (.err e', t) := by
    intro t ht
    unfold coreHandle at he ⊢
    rw [ht]
    by_cases htr : e.translated
    · simp only [htr, if_true] at he ⊢
      cases hst : s.store with
      | none => simp [hst] at he
      | some k =>
        simp only [hst] at he ⊢
        simpa using he
    · simp only [htr, Bool.false_eq_true, if_false] at he ⊢
      simpa using he
  refine yields_of (m := coreReader rm stores fuel) (fun t xs => ((RecDead stores e t ∧ t.corrupt = false) ∨
    (t.corrupt = true ∧ e = .corruptRecord)) ∧ t.store = s.store ∧ xs = []) _ ?_ ?_ s0 [] ⟨hd, hs0, rfl⟩
  · rintro t x xs ⟨_, _, h⟩
    cases h
  · rintro t ⟨hd, hst, _⟩
    show (coreRead rm stores fuel t).1 = _ ∧ _
    rcases hd with ⟨h1, h2⟩ | ⟨h1, rfl⟩
    · obtain ⟨k1, k2, k3, k4⟩ := readRecord_dead t h1
      rcases hr : readRecord rm stores t with ⟨o, t'⟩
      rw [hr] at k1 k2 k3 k4
      simp only at k1 k2 k3 k4
      subst k1
      have : coreRead rm stores fuel t = (.err e', t') := by
        simp only [coreRead, readPayload, h2, Bool.false_eq_true, if_false, hr]
        exact hh t' (k3.trans hst)
      refine ⟨by rw [this], ?_⟩
      rw [show (coreReader rm stores fuel).read t = (.err e', t') from this]
      exact ⟨.inl ⟨k2, k4.trans h2⟩, k3.trans hst, rfl⟩
    · have : coreRead rm stores fuel t = (.err e', { t with corrupt := true }) := by
        simp only [coreRead, readPayload, h1, if_true, throwCorrupt]
        exact hh _ hst
      refine ⟨by rw [this], ?_⟩
      rw [show (coreReader rm stores fuel).read t = (.err e', { t with corrupt := true }) from this]
      exact ⟨.inr ⟨rfl, rfl⟩, hst, rfl⟩

theorem core_lasts {I : rm.σ → Prop} {e' : Err} (he : e' ≠ .diverges) (h1 : ∀ e, e ≠ .diverges → Lasts rm (.err e) I) (h2 : Lasts rm (.ok none) I)
    (hst : ∀ (i : Nat) r, stores[i]? = some (Res.ok (some r)) → I r) (fuel : Nat) : LastsAlways (coreReader rm stores fuel) e' := by
  refine ⟨RrOk I, ?_, ?_, ?_⟩
  · rintro s (rfl | ⟨u, rfl⟩) <;> exact fun r hr => by cases hr
  · intro s hs
    show RrOk I (coreRead rm stores fuel s).2
    obtain ⟨k1, _⟩ := readPayload_lasts (stores := stores) (e := .streamError) (by decide) (h1 _ (by decide)) h2 hst fuel s hs
    unfold coreRead
    rcases hr : readPayload rm stores fuel s with ⟨o, s'⟩
    rw [hr] at k1
    rcases o with (_ | x) | e | w
    · simp only
      split <;> exact k1
    · simp only
      split <;> exact k1
    · simp only [coreHandle]
      split
      · split <;> exact k1
      · exact k1
    · exact k1
  · intro s hs ht
    have ht' : (coreRead rm stores fuel s).1 = .err e' := ht
    show (coreReader rm stores fuel).Yields (coreRead rm stores fuel s).2 [] _
    unfold coreRead at ht' ⊢
    rcases hr : readPayload rm stores fuel s with ⟨o, s'⟩
    rw [hr] at ht'
    rcases o with (_ | x) | e | w
    · simp only at ht'
      split at ht' <;> simp at ht'
    · simp only at ht'
      split at ht' <;> simp at ht'
    · simp only at ht' ⊢
      have hne : e ≠ .diverges := by
        rintro rfl
        simp [coreHandle, Err.translated] at ht'
        exact he ht'.symm
      obtain ⟨_, k2⟩ := readPayload_lasts (stores := stores) hne (h1 _ hne) h2 hst fuel s hs
      rw [hr] at k2
      have hs2 : (coreHandle e s').2 = s' := by
        unfold coreHandle
        split
        · split <;> rfl
        · rfl
      rw [hs2]
      exact core_dead ht' s' (k2 rfl) rfl
    · simp at ht'

/-- What the theorems assume of the record reader of a data store. -/
theorem core_sticky {stores : List (Res (Option rm.σ))}
    (hst : ∀ (i : Nat) r, stores[i]? = some (Res.ok (some r)) → (∀ e, Sticky rm r e) ∧ StaysAtEnd rm r) {e : Err} (he : e ≠ .diverges)
    (fuel : Nat) : LastsAlways (coreReader rm stores fuel) e :=
  core_lasts (I := fun r => (∀ e, Sticky rm r e) ∧ StaysAtEnd rm r) he
    (fun e' _ => ⟨fun _ hs => ⟨fun e'' => stays_keep (hs.1 e''), stays_keep hs.2⟩, fun _ hs ht => stays_last (hs.1 e') ht⟩)
    ⟨fun _ hs => ⟨fun e'' => stays_keep (hs.1 e''), stays_keep hs.2⟩, fun _ hs ht => stays_last hs.2 ht⟩ hst fuel

end

/-! ## The first read of an epoch -/

theorem fill_err_rng {m : Machine α} {R : Rng} {e : Err} (g : R.G) : ∀ (room : Nat) (s : ShuffledState m.σ R.G α),
    (shuffleFill R m room s).1 = .err e → (shuffleFill R m room { s with rng := g }).1 = .err e
  | 0, s, h => by simp [shuffleFill] at h
  | room + 1, s, h => by
    unfold shuffleFill at h ⊢
    by_cases hi : s.innerHas = true
    · rw [if_pos hi] at h
      rw [if_pos (by exact hi)]
      rcases hr : m.read s.inner with ⟨o, i⟩
      rw [hr] at h
      rcases o with (_ | x) | e' | w
      · simp at h
      · exact fill_err_rng g room { s with inner := i, buffer := s.buffer ++ [x] } h
      · simpa using h
      · simp at h
    · rw [if_neg hi] at h
      simp at h

theorem shuffled_first {m : Machine α} (hm : m.Resets) (R : Rng) (p : ShuffleParams) (e : Err)
    (h : ((shuffled R p m).read (shuffled R p m).init).1 = .err e) (u : (shuffled R p m).σ) :
    ((shuffled R p m).read ((shuffled R p m).reset u)).1 = .err e := by
  simp only [shuffled, shuffledRead, hm u.inner] at h ⊢
  by_cases hw : p.effWindow = 1
  · rw [if_pos hw] at h ⊢
    exact h
  · rw [if_neg hw] at h ⊢
    have key : (shuffleFill R m (p.effWindow - ([] : List α).length) ⟨m.init, [], true, R.seed p.seed⟩).1 = .err e := by
      split at h
      · rename_i s' hf
        split at h
        · simp at h
        · split at h
          · exact absurd h ((popRandom_inner R p s').2 e)
          · simp at h
      · rename_i e' s' hf
        rw [hf]
        simpa using h
      · simp at h
    have := fill_err_rng (if p.reshuffle = true then u.rng else R.seed p.seed) _ _ key
    rcases hf : shuffleFill R m (p.effWindow - ([] : List α).length)
      ⟨m.init, [], true, if p.reshuffle = true then u.rng else R.seed p.seed⟩ with ⟨o, s''⟩
    simp only at this
    rw [hf] at this
    simp only at this
    subst this
    rfl

theorem make_first (R : Rng) (o : ReadOptions) (core r : Machine α) {e : Err} (h : core.Resets)
    (hs : o.sampleRatio = none) (hm : makeInstanceReader R o core = some r) (he : (r.read r.init).1 = .err e) (u : r.σ) :
    (r.read (r.reset u)).1 = .err e := by
  have w0 : core.base.Resets := base_resets h
  simp only [makeInstanceReader, hs] at hm
  have w1 := ite_machine (P := fun m => m.Resets) (c := o.toSkip > 0 ∨ o.toRead.isSome) (base_resets (ranged_resets w0 o.toSkip o.toRead)) w0
  generalize (if o.toSkip > 0 ∨ o.toRead.isSome then (ranged o.toSkip o.toRead core.base).base else core.base) = m1 at hm w1
  split at hm
  · cases hm
  · have w2 := ite_machine (P := fun m => m.Resets) (c := o.numShards > 1) (base_resets (sharded_resets w1 o.numShards o.shardIndex)) w1
    generalize (if o.numShards > 1 then (sharded o.numShards o.shardIndex m1).base else m1) = m2 at hm w2
    cases hsh : o.shuffle with
    | none =>
      simp only [hsh, Option.some.injEq] at hm
      subst hm
      rw [w2 u]
      exact he
    | some p =>
      simp only [hsh, Option.some.injEq] at hm
      subst hm
      exact shuffled_first w2 R p e he u.1

/-! ## The data reader -/

section
variable {ε S ι : Type} {b : Nat} {l : LastHandling} {r : Machine α} {P Q : Nat} {size : α → Nat}
  {dec : Batch α → Except Err (Option ε)} {infer : Infer α S ι}

/-- Whether a move is a call that needs the first instance. -/
def needsFirst : WAct → Bool
  | .readSchema => true
  | .dact (.call _) => true
  | _ => false

/-- The reader has not got anywhere, and the next instance cannot be read. -/
structure NoStart (e : Err) (w : WState b l r ε S ι) : Prop where
  schema : w.schema = none
  status : w.d.p.status = .notStarted
  idle : w.d.p.consumer = .idle
  peeked : w.d.peeked = none
  hist : w.d.hist = []
  dead : r.Yields w.d.p.src.1.1 [] (.err e)
  noPeek : w.d.p.src.1.2 = none

theorem ensure_noStart {e : Err} {w : WState b l r ε S ι} (h : NoStart e w) :
    (ensureSchema infer w).1 = .err e ∧ NoStart e (ensureSchema infer w).2 ∧ (ensureSchema infer w).2.told = w.told := by
  obtain ⟨k1, k2⟩ := yields_nil_iff.1 h.dead
  have hp : basePeek r w.d.p.src.1 = (.err e, ((r.read w.d.p.src.1.1).2, none)) := by
    unfold basePeek
    rw [h.noPeek]
    rcases hr : r.read w.d.p.src.1.1 with ⟨o, c⟩
    rw [hr] at k1
    simp only at k1
    subst k1
    rfl
  unfold ensureSchema
  rw [h.schema]
  simp only [hp]
  exact ⟨trivial, ⟨rfl, h.status, h.idle, h.peeked, h.hist, k2, rfl⟩, trivial⟩

theorem noStart_step {e : Err} {w w' : WState b l r ε S ι} (h : NoStart e w) (a : WAct)
    (hr : a = .dact .reset → ∀ u, r.Yields (r.reset u) [] (.err e)) (hs : wstep P Q size dec infer a w = some w') :
    NoStart e w' ∧ w'.told = w.told ++ if needsFirst a then [.err e] else [] := by
  obtain ⟨k1, k2, k3⟩ := ensure_noStart (infer := infer) h
  rcases he : ensureSchema infer w with ⟨o, v⟩
  rw [he] at k1 k2 k3
  simp only at k1 k2 k3
  subst k1
  cases a with
  | readSchema =>
    simp only [wstep, h.idle, if_true, he, Option.some.injEq] at hs
    subst hs
    exact ⟨⟨k2.schema, k2.status, k2.idle, k2.peeked, k2.hist, k2.dead, k2.noPeek⟩, by simp [needsFirst, k3]⟩
  | dact a =>
    cases a with
    | call c =>
      simp only [wstep, h.idle, h.peeked, Option.isNone_none, and_self, if_true, he, Option.some.injEq] at hs
      subst hs
      exact ⟨⟨k2.schema, k2.status, k2.idle, k2.peeked, k2.hist, k2.dead, k2.noPeek⟩, by simp [needsFirst, k3]⟩
    | reset =>
      simp only [wstep, dstep, pCallReset, h.idle, h.status, if_true, Option.map_some, PState.afterStop, reduceCtorEq, if_false,
        Option.some.injEq] at hs
      subst hs
      exact ⟨⟨h.schema, rfl, rfl, rfl, rfl, hr rfl _, rfl⟩, by simp [needsFirst]⟩
    | sys a =>
      exfalso
      have hi := h.idle
      have hn := h.status
      simp only [wstep, dstep] at hs
      split at hs
      · simp at hs
      · simp only [Option.map_map, Option.map_eq_some_iff] at hs
        obtain ⟨p, hp, _⟩ := hs
        cases a <;> simp [pstep, pProduce, pSend, pDecode, pForward, pQStart, pQStep, pFinish, pCStep, pCJoin, hi, hn] at hp <;>
          simp_all [PAct.isCall]

theorem noStart_run {e : Err} : ∀ (as : List WAct) (_ : WAct.dact .reset ∈ as → ∀ u, r.Yields (r.reset u) [] (.err e))
    {w w' : WState b l r ε S ι}, NoStart e w →
    wrun P Q size dec infer as w = some w' →
    NoStart e w' ∧ w'.told = w.told ++ List.replicate (as.countP needsFirst) (.err e)
  | [], _, w, w', h, hs => by
    simp only [wrun, Option.some.injEq] at hs
    subst hs
    exact ⟨h, by simp⟩
  | a :: as, hr, w, w', h, hs => by
    simp only [wrun, Option.bind_eq_some_iff] at hs
    obtain ⟨v, h1, h2⟩ := hs
    obtain ⟨k1, k2⟩ := noStart_step h a (fun e => hr (by simp [e])) h1
    obtain ⟨q1, q2⟩ := noStart_run as (fun hm => hr (by simp [hm])) k1 h2
    refine ⟨q1, ?_⟩
    rw [q2, k2, List.countP_cons]
    cases needsFirst a <;> simp [List.replicate_succ]

end

/-! ## Sampling -/

theorem sampleLoop_fails {m : Machine α} {e : Err} : ∀ (xs : List α) (room : Nat) (s : m.σ) (buf : List (Option α)),
    m.ReadsTo s xs (.err e) → xs.length < room → ∃ i, sampleLoop m room s buf = (.err e, i, buf ++ xs.map some)
  | [], 0, s, buf, _, h => by simp at h
  | [], room + 1, s, buf, hr, _ => by
    simp only [ReadsTo] at hr
    rcases hm : m.read s with ⟨o, i⟩
    rw [hm] at hr
    simp only at hr
    subst hr
    exact ⟨i, by simp [sampleLoop, hm]⟩
  | x :: xs, 0, s, buf, _, h => by simp at h
  | x :: xs, room + 1, s, buf, hr, h => by
    obtain ⟨h1, h2⟩ := hr
    rcases hm : m.read s with ⟨o, i⟩
    rw [hm] at h1 h2
    simp only at h1 h2
    subst h1
    obtain ⟨i', hi⟩ := sampleLoop_fails xs room i (buf ++ [some x]) h2 (by simpa using h)
    exact ⟨i', by simp [sampleLoop, hm, hi]⟩

theorem sampled_rest {m : Machine α} (q : Ratio) (i : m.σ) : ∀ (xs : List α) (pre : List (Option α)),
    (sampled q m).outs xs.length ⟨i, pre ++ xs.map some, pre.length⟩ = xs.map fun x => .ok (some x)
  | [], pre => rfl
  | x :: xs, pre => by
    have e1 : (sampled q m).read ⟨i, pre ++ (x :: xs).map some, pre.length⟩ =
        (.ok (some x), ⟨i, (pre ++ [none]) ++ xs.map some, (pre ++ [none]).length⟩) := by
      simp [sampled, sampledRead, sampledTake]
    show _ :: (sampled q m).outs xs.length _ = _
    rw [e1]
    simp only [List.map_cons, List.cons.injEq, true_and]
    exact sampled_rest q i xs (pre ++ [none])

end Mlio
