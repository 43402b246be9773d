import Verif.Spec.Fifo

namespace Mlio
open Spec

def Fifo.evs (f : Fifo) (es : List FifoEv) : Fifo := es.foldl Fifo.ev f

theorem evs_append (f : Fifo) (a b : List FifoEv) : f.evs (a ++ b) = (f.evs a).evs b := List.foldl_append

/-- What has been delivered and what can be read is what was written; the reader hears of the end from a service that has been there. -/
structure Fifo.Inv (f : Fifo) (D : Bytes) : Prop where
  all : D ++ f.buf = f.written
  away : f.peer = .away → f.buf = []

theorem ev_inv {f : Fifo} {D : Bytes} (h : f.Inv D) (e : FifoEv) : (f.ev e).Inv D := by
  obtain ⟨h1, h2⟩ := h
  cases e with
  | appear => exact ⟨h1, h2⟩
  | connect =>
    simp only [Fifo.ev]
    split
    · exact ⟨h1, by simp⟩
    · exact ⟨h1, h2⟩
  | write b =>
    simp only [Fifo.ev]
    split
    · rename_i hc
      exact ⟨by simp [← h1], by simp [hc]⟩
    · exact ⟨h1, h2⟩
  | close =>
    simp only [Fifo.ev]
    split
    · exact ⟨h1, by simp⟩
    · exact ⟨h1, h2⟩
  | tick => exact ⟨h1, h2⟩
  | signal => exact ⟨h1, h2⟩
  | go k => exact ⟨h1, h2⟩

theorem evs_inv {D : Bytes} : ∀ (es : List FifoEv) {f : Fifo}, f.Inv D → (f.evs es).Inv D
  | [], _, h => h
  | e :: es, _, h => evs_inv es (ev_inv h e)

theorem evs_written : ∀ (es : List FifoEv) (f : Fifo), f.written.length ≤ (f.evs es).written.length
  | [], _ => Nat.le_refl _
  | e :: es, f => by
    refine Nat.le_trans ?_ (evs_written es (f.ev e))
    cases e <;> simp only [Fifo.ev] <;> try exact Nat.le_refl _
    all_goals (split <;> simp)

theorem ev_peer {f : Fifo} (h : f.peer ≠ .away) (e : FifoEv) : (f.ev e).peer ≠ .away := by
  cases e <;> simp only [Fifo.ev] <;> try exact h
  · split <;> simp_all
  · split <;> simp_all
  · split <;> simp_all

theorem evs_peer : ∀ (es : List FifoEv) {f : Fifo}, f.peer ≠ .away → (f.evs es).peer ≠ .away
  | [], _, h => h
  | e :: es, _, h => evs_peer es (ev_peer h e)

theorem ev_ready {f : Fifo} (h : f.ready = true) (e : FifoEv) : (f.ev e).ready = true := by
  simp only [Fifo.ready, Bool.or_eq_true, Bool.not_eq_true', beq_iff_eq] at h ⊢
  cases e <;> simp only [Fifo.ev] <;> try exact h
  · split
    · rename_i hc
      rcases h with h | h
      · exact .inl h
      · rw [hc.2] at h; cases h
    · exact h
  · split
    · rcases h with h | h
      · left
        cases hb : f.buf <;> simp [hb] at h ⊢
      · exact .inr h
    · exact h
  · split
    · exact .inr rfl
    · exact h

theorem evs_ready : ∀ (es : List FifoEv) {f : Fifo}, f.ready = true → (f.evs es).ready = true
  | [], _, h => h
  | e :: es, _, h => evs_ready es (ev_ready h e)

theorem advance_used : ∀ (es : List FifoEv) (f : Fifo), ∃ used, es = used ++ (Fifo.advance es f).2.2 ∧
    (Fifo.advance es f).2.1 = f.evs used
  | [], f => ⟨[], rfl, rfl⟩
  | e :: es, f => by
    obtain ⟨u, h1, h2⟩ := advance_used es (f.ev e)
    cases e with
    | go k => exact ⟨[.go k], rfl, rfl⟩
    | appear => exact ⟨.appear :: u, by simp only [Fifo.advance, List.cons_append]; rw [← h1], by simp only [Fifo.advance]; exact h2⟩
    | connect => exact ⟨.connect :: u, by simp only [Fifo.advance, List.cons_append]; rw [← h1], by simp only [Fifo.advance]; exact h2⟩
    | write b => exact ⟨.write b :: u, by simp only [Fifo.advance, List.cons_append]; rw [← h1], by simp only [Fifo.advance]; exact h2⟩
    | close => exact ⟨.close :: u, by simp only [Fifo.advance, List.cons_append]; rw [← h1], by simp only [Fifo.advance]; exact h2⟩
    | tick => exact ⟨.tick :: u, by simp only [Fifo.advance, List.cons_append]; rw [← h1], by simp only [Fifo.advance]; exact h2⟩
    | signal => exact ⟨.signal :: u, by simp only [Fifo.advance, List.cons_append]; rw [← h1], by simp only [Fifo.advance]; exact h2⟩

/-- How many microseconds have passed. -/
def ticks (es : List FifoEv) : Nat := es.countP (· == .tick)

theorem select_used : ∀ (es : List FifoEv) (left : Nat) (f : Fifo) (r : Bool) (f' : Fifo) (es' : List FifoEv) (t : Nat),
    Fifo.select es left f = (r, f', es', t) →
    (∃ used, es = used ++ es' ∧ f' = f.evs used) ∧ f'.ready = r ∧ t ≤ left ∧ (r = false → t = left)
  | es, left, f, r, f', es', t, h => by
    unfold Fifo.select at h
    split at h
    · rename_i hr
      cases h
      exact ⟨⟨[], rfl, rfl⟩, hr, Nat.zero_le _, by simp⟩
    · rename_i hr
      have hr : f.ready = false := by simpa using hr
      split at h
      · rename_i hl
        cases h
        exact ⟨⟨[], rfl, rfl⟩, hr, Nat.zero_le _, fun _ => hl.symm⟩
      · rename_i hl
        have rec1 : ∀ (e : FifoEv) (es : List FifoEv), Fifo.select es left (f.ev e) = (r, f', es', t) →
            ((∃ used, es = used ++ es' ∧ f' = (f.ev e).evs used) ∧ f'.ready = r ∧ t ≤ left ∧ (r = false → t = left)) →
            (∃ used, e :: es = used ++ es' ∧ f' = f.evs used) ∧ f'.ready = r ∧ t ≤ left ∧ (r = false → t = left) := by
          rintro e es _ ⟨⟨u, h1, h2⟩, h3⟩
          exact ⟨⟨e :: u, by rw [h1]; rfl, h2⟩, h3⟩
        cases es with
        | nil =>
          cases h
          exact ⟨⟨[], rfl, rfl⟩, hr, Nat.le_refl _, fun _ => rfl⟩
        | cons e es =>
          cases e with
          | tick =>
            simp only at h
            rcases hs : Fifo.select es (left - 1) f with ⟨r1, f1, es1, t1⟩
            rw [hs] at h
            simp only at h
            cases h
            obtain ⟨⟨u, h1, h2⟩, h3, h4, h5⟩ := select_used es (left - 1) f _ _ _ _ hs
            refine ⟨⟨.tick :: u, by rw [h1]; rfl, h2⟩, h3, by omega, fun hh => ?_⟩
            have := h5 hh
            omega
          | appear => exact rec1 _ es h (select_used es left _ _ _ _ _ h)
          | connect => exact rec1 _ es h (select_used es left _ _ _ _ _ h)
          | write b => exact rec1 _ es h (select_used es left _ _ _ _ _ h)
          | close => exact rec1 _ es h (select_used es left _ _ _ _ _ h)
          | signal => exact rec1 _ es h (select_used es left _ _ _ _ _ h)
          | go k => exact rec1 _ es h (select_used es left _ _ _ _ _ h)
termination_by es => es.length

theorem sleep_used : ∀ (es : List FifoEv) (left : Nat) (f : Fifo) (f' : Fifo) (es' : List FifoEv) (t : Nat),
    Fifo.sleep es left f = (f', es', t) → (∃ used, es = used ++ es' ∧ f' = f.evs used) ∧ t ≤ left
  | es, left, f, f', es', t, h => by
    unfold Fifo.sleep at h
    split at h
    · cases h
      exact ⟨⟨[], rfl, rfl⟩, Nat.zero_le _⟩
    · rename_i hl
      have rec1 : ∀ (e : FifoEv) (es : List FifoEv),
          ((∃ used, es = used ++ es' ∧ f' = (f.ev e).evs used) ∧ t ≤ left) →
          (∃ used, e :: es = used ++ es' ∧ f' = f.evs used) ∧ t ≤ left := by
        rintro e es ⟨⟨u, h1, h2⟩, h3⟩
        exact ⟨⟨e :: u, by rw [h1]; rfl, h2⟩, h3⟩
      cases es with
      | nil =>
        cases h
        exact ⟨⟨[], rfl, rfl⟩, Nat.le_refl _⟩
      | cons e es =>
        cases e with
        | tick =>
          simp only at h
          rcases hs : Fifo.sleep es (left - 1) f with ⟨f1, es1, t1⟩
          rw [hs] at h
          simp only at h
          cases h
          obtain ⟨⟨u, h1, h2⟩, h3⟩ := sleep_used es (left - 1) f _ _ _ hs
          exact ⟨⟨.tick :: u, by rw [h1]; rfl, h2⟩, by omega⟩
        | signal =>
          cases h
          exact ⟨⟨[.signal], rfl, rfl⟩, Nat.zero_le _⟩
        | appear => exact rec1 _ es (sleep_used es left _ _ _ _ h)
        | connect => exact rec1 _ es (sleep_used es left _ _ _ _ h)
        | write b => exact rec1 _ es (sleep_used es left _ _ _ _ h)
        | close => exact rec1 _ es (sleep_used es left _ _ _ _ h)
        | go k => exact rec1 _ es (sleep_used es left _ _ _ _ h)
termination_by es => es.length

/-- `wait_for_data`. -/
theorem wait_spec {fd : Nat} {timeout : Int} {f f' : Fifo} {es es' : List FifoEv} {r : FifoRes Unit} {t : Nat}
    (h : f.wait fd timeout es = (r, f', es', t)) :
    (∃ used, es = used ++ es' ∧ f' = f.evs used) ∧ t ≤ timeout.toNat * second ∧
    ((r = .ok () ∧ f'.ready = true) ∨ (r = .timedOut ∧ 0 ≤ timeout ∧ f'.ready = false ∧ t = timeout.toNat * second) ∨
      (r = .invalid ∧ timeout < 0) ∨ ((∃ w, r = .ub w) ∧ fdSetSize ≤ fd)) ∧
    (fd < fdSetSize → 0 ≤ timeout → r = .ok () ∨ r = .timedOut) := by
  unfold Fifo.wait at h
  split at h
  · rename_i hf
    cases h
    exact ⟨⟨[], rfl, rfl⟩, Nat.zero_le _, .inr (.inr (.inr ⟨⟨_, rfl⟩, hf⟩)), by omega⟩
  · split at h
    · rename_i hf ht
      cases h
      exact ⟨⟨[], rfl, rfl⟩, Nat.zero_le _, .inr (.inr (.inl ⟨rfl, ht⟩)), by omega⟩
    · rename_i hf ht
      rcases hs : Fifo.select es (timeout.toNat * second) f with ⟨r1, f1, es1, t1⟩
      rw [hs] at h
      obtain ⟨h1, h2, h3, h4⟩ := select_used _ _ _ _ _ _ _ hs
      cases r1 with
      | true => cases h; exact ⟨h1, h3, .inl ⟨rfl, h2⟩, fun _ _ => .inl rfl⟩
      | false => cases h; exact ⟨h1, h3, .inr (.inl ⟨rfl, by omega, h2, h4 rfl⟩), fun _ _ => .inr rfl⟩

/-- How a call of `read` ends. -/
def ReadEnds (fd : Nat) (timeout : Int) (n : Nat) (f : Fifo) (es : List FifoEv) (o : FifoRes Bytes × Fifo × List FifoEv × Nat) : Prop :=
  (∃ used, es = used ++ o.2.2.1 ∧
    ((∃ b k, o.1 = .ok b ∧ (f.evs used).sysRead n k = (.bytes b, o.2.1)) ∨
      (o.1 = .timedOut ∧ 0 ≤ timeout ∧ o.2.1 = f.evs used ∧ o.2.1.ready = false ∧ o.2.2.2 = timeout.toNat * second) ∨
      (o.1 = .invalid ∧ timeout < 0 ∧ o.2.1 = f.evs used) ∨
      ((∃ w, o.1 = .ub w) ∧ fdSetSize ≤ fd))) ∧ o.2.2.2 ≤ timeout.toNat * second

theorem readEnds_cons {fd : Nat} {timeout : Int} {n : Nat} {f : Fifo} {es es1 : List FifoEv} {used : List FifoEv}
    {o : FifoRes Bytes × Fifo × List FifoEv × Nat} (he : es = used ++ es1) (h : ReadEnds fd timeout n (f.evs used) es1 o) :
    ReadEnds fd timeout n f es o := by
  obtain ⟨⟨u, h1, h2⟩, h3⟩ := h
  refine ⟨⟨used ++ u, by rw [he, h1, List.append_assoc], ?_⟩, h3⟩
  rw [evs_append]
  exact h2

theorem sysRead_cases (n k : Nat) (f : Fifo) : (∃ b f', f.sysRead n k = (.bytes b, f')) ∨
    (f.sysRead n k = (.again, f) ∧ f.ready = false) := by
  unfold Fifo.sysRead
  split
  · exact .inl ⟨_, _, rfl⟩
  · rename_i hb
    have hb : f.buf = [] := by simpa using hb
    split
    · rename_i hc
      exact .inr ⟨rfl, by simp [Fifo.ready, hb, hc]⟩
    · exact .inl ⟨_, _, rfl⟩

/-- After the wait. -/
theorem readLoop_two (fd : Nat) (timeout : Int) (n fuel : Nat) (f : Fifo) (es : List FifoEv) (h : f.ready = true) :
    ReadEnds fd timeout n f es (Fifo.readLoop fd timeout n (fuel + 1) 2 f es) ∧
      (Fifo.readLoop fd timeout n (fuel + 1) 2 f es).2.2.2 = 0 := by
  obtain ⟨u, h1, h2⟩ := advance_used es f
  unfold Fifo.readLoop
  rcases ha : Fifo.advance es f with ⟨k, f1, es1⟩
  rw [ha] at h1 h2
  simp only at h1 h2 ⊢
  subst h2
  rcases sysRead_cases n k (f.evs u) with ⟨b, f', hs⟩ | ⟨_, hs⟩
  · rw [hs]
    exact ⟨⟨⟨u, h1, .inl ⟨b, k, rfl, hs⟩⟩, Nat.zero_le _⟩, rfl⟩
  · rw [evs_ready u h] at hs
    cases hs

theorem readLoop_one (fd : Nat) (timeout : Int) (n fuel : Nat) (f : Fifo) (es : List FifoEv) :
    ReadEnds fd timeout n f es (Fifo.readLoop fd timeout n (fuel + 2) 1 f es) := by
  obtain ⟨u, h1, h2⟩ := advance_used es f
  unfold Fifo.readLoop
  rcases ha : Fifo.advance es f with ⟨k, f1, es1⟩
  rw [ha] at h1 h2
  simp only at h1 h2 ⊢
  subst h2
  rcases sysRead_cases n k (f.evs u) with ⟨b, f', hs⟩ | ⟨hs, _⟩
  · rw [hs]
    exact ⟨⟨u, h1, .inl ⟨b, k, rfl, hs⟩⟩, Nat.zero_le _⟩
  · rw [hs]
    simp only [Nat.reduceAdd, Nat.reduceEqDiff, reduceIte]
    refine readEnds_cons h1 ?_
    generalize f.evs u = g
    rcases hw : g.wait fd timeout es1 with ⟨r, f2, es2, t⟩
    obtain ⟨⟨u2, h3, h4⟩, h5, h6, _⟩ := wait_spec hw
    rcases h6 with ⟨rfl, hr⟩ | ⟨rfl, hr, hr2, hr3⟩ | ⟨rfl, hr⟩ | ⟨⟨w, rfl⟩, hr⟩
    · obtain ⟨h7, h8⟩ := readLoop_two fd timeout n fuel f2 es2 hr
      simp only
      rcases hq : Fifo.readLoop fd timeout n (fuel + 1) 2 f2 es2 with ⟨r3, f3, es3, t3⟩
      rw [hq] at h7 h8
      simp only at h8
      subst h8
      subst h4
      obtain ⟨⟨u3, h9, h10⟩, h11⟩ := readEnds_cons h3 h7
      refine ⟨⟨u3, h9, ?_⟩, h5⟩
      rcases h10 with h10 | ⟨e1, e2, e3, e4, e5⟩ | h10 | h10
      · exact .inl h10
      · simp only at e1 e2 e3 e4 e5
        refine .inr (.inl ⟨e1, e2, e3, e4, ?_⟩)
        show t + 0 = _
        omega
      · exact .inr (.inr (.inl h10))
      · exact .inr (.inr (.inr h10))
    · exact ⟨⟨u2, h3, .inr (.inl ⟨rfl, hr, h4, hr2, hr3⟩)⟩, h5⟩
    · exact ⟨⟨u2, h3, .inr (.inr (.inl ⟨rfl, hr, h4⟩))⟩, h5⟩
    · exact ⟨⟨u2, h3, .inr (.inr (.inr ⟨⟨w, rfl⟩, hr⟩))⟩, h5⟩

theorem readLoop_zero (fd : Nat) (timeout : Int) (n fuel : Nat) (f : Fifo) (es : List FifoEv) :
    ReadEnds fd timeout n f es (Fifo.readLoop fd timeout n (fuel + 3) 0 f es) := by
  obtain ⟨u, h1, h2⟩ := advance_used es f
  unfold Fifo.readLoop
  rcases ha : Fifo.advance es f with ⟨k, f1, es1⟩
  rw [ha] at h1 h2
  simp only at h1 h2 ⊢
  subst h2
  rcases sysRead_cases n k (f.evs u) with ⟨b, f', hs⟩ | ⟨hs, _⟩
  · rw [hs]
    exact ⟨⟨u, h1, .inl ⟨b, k, rfl, hs⟩⟩, Nat.zero_le _⟩
  · rw [hs]
    simp only [Nat.zero_add, if_true]
    exact readEnds_cons h1 (readLoop_one fd timeout n fuel _ es1)

theorem sysRead_inv {n k : Nat} {f f' : Fifo} {b D : Bytes} (h : f.Inv D) (hs : f.sysRead n k = (.bytes b, f')) :
    f'.Inv (D ++ b) ∧ f'.peer = f.peer ∧ f'.written = f.written ∧ b.length ≤ n ∧ (n ≠ 0 → b = [] → f'.buf = [] ∧ f.buf = [] ∧ f.peer ≠ .connected) := by
  unfold Fifo.sysRead at hs
  split at hs
  · rename_i hb
    cases hs
    refine ⟨⟨?_, ?_⟩, rfl, rfl, ?_, ?_⟩
    · simp only [List.append_assoc, List.take_append_drop]; exact h.all
    · intro ha
      simp [h.away ha]
    · simp only [List.length_take]; omega
    · intro hn hbn
      cases hc : f.buf with
      | nil => exact absurd hc hb
      | cons x xs =>
        obtain ⟨m, rfl⟩ : ∃ m, n = m + 1 := ⟨n - 1, by omega⟩
        rw [hc, show min (m + 1) (k + 1) = min m k + 1 by omega] at hbn
        simp at hbn
  · rename_i hb
    have hb : f.buf = [] := by simpa using hb
    split at hs
    · simp at hs
    · rename_i hc
      cases hs
      refine ⟨⟨by rw [List.append_nil]; exact h.all, h.away⟩, rfl, rfl, Nat.zero_le _, fun _ _ => ⟨hb, hb, hc⟩⟩

/-- A call of `read`. -/
theorem read_spec {fd : Nat} {timeout : Int} {n : Nat} {f f' : Fifo} {es es' : List FifoEv} {r : FifoRes Bytes} {t : Nat} {D : Bytes}
    (hi : f.Inv D) (hp : f.peer ≠ .away) (h : f.read fd timeout n es = (r, f', es', t)) :
    t ≤ timeout.toNat * second ∧
    ((∃ b, r = .ok b ∧ f'.Inv (D ++ b) ∧ f'.peer ≠ .away ∧ b.length ≤ n ∧ (n ≠ 0 → b = [] → f'.buf = [] ∧ f'.peer = .closed)) ∨
      (r = .timedOut ∧ 0 ≤ timeout ∧ f'.Inv D ∧ f'.buf = [] ∧ f'.peer = .connected ∧ t = timeout.toNat * second ∧
        f.written.length ≤ f'.written.length) ∨
      (r = .invalid ∧ timeout < 0 ∧ f'.Inv D) ∨ ((∃ w, r = .ub w) ∧ fdSetSize ≤ fd)) := by
  unfold Fifo.read at h
  split at h
  · rename_i hn
    cases h
    exact ⟨Nat.zero_le _, .inl ⟨[], rfl, by simpa using hi, hp, Nat.zero_le _, fun h => absurd hn h⟩⟩
  · rename_i hn
    obtain ⟨⟨u, h1, h2⟩, h3⟩ := readLoop_zero fd timeout n 1 f es
    rw [h] at h1 h2 h3
    simp only at h1 h2 h3
    refine ⟨h3, ?_⟩
    have hiu := evs_inv u hi
    have hpu := evs_peer u hp
    rcases h2 with ⟨b, k, rfl, hs⟩ | ⟨rfl, ht, rfl, hr, ht2⟩ | ⟨rfl, ht, rfl⟩ | hub
    · obtain ⟨e1, e2, e3, e4, e5⟩ := sysRead_inv hiu hs
      refine .inl ⟨b, rfl, e1, by rw [e2]; exact hpu, e4, fun hn hb => ?_⟩
      obtain ⟨e6, _, e7⟩ := e5 hn hb
      refine ⟨e6, ?_⟩
      rw [e2]
      cases hq : (f.evs u).peer with
      | away => exact absurd hq hpu
      | connected => exact absurd hq e7
      | closed => rfl
    · simp only [Fifo.ready, Bool.or_eq_false_iff, Bool.not_eq_false', beq_eq_false_iff_ne, List.isEmpty_iff] at hr
      refine .inr (.inl ⟨rfl, ht, hiu, hr.1, ?_, ht2, evs_written u f⟩)
      cases hq : (f.evs u).peer with
      | away => exact absurd hq hpu
      | connected => rfl
      | closed => exact absurd hq hr.2
    · exact .inr (.inr (.inl ⟨rfl, ht, hiu⟩))
    · exact .inr (.inr (.inr hub))

/-- Opening the FIFO. -/
theorem openLoop_spec {fd : Nat} {timeout : Int} : ∀ (a : Nat) {f f' : Fifo} {es es' : List FifoEv} {r : FifoRes Unit} {t : Nat},
    f.Inv [] → Fifo.openLoop fd timeout a f es = (r, f', es', t) →
    t ≤ (a - 1) * second + timeout.toNat * second ∧ (r = .ok () → f'.Inv [] ∧ f'.peer ≠ .away) ∧
    (fd < fdSetSize → 0 ≤ timeout → r = .ok () ∨ r = .timedOut ∨ r = .missing)
  | 0, f, f', es, es', r, t, _, h => by
    cases h
    exact ⟨Nat.zero_le _, by simp, fun _ _ => .inr (.inr rfl)⟩
  | a + 1, f, f', es, es', r, t, hi, h => by
    obtain ⟨u, h1, h2⟩ := advance_used es f
    unfold Fifo.openLoop at h
    rcases ha : Fifo.advance es f with ⟨k, f1, es1⟩
    rw [ha] at h1 h2 h
    simp only at h1 h2 h
    have hi1 : f1.Inv [] := by rw [h2]; exact evs_inv u hi
    split at h
    · obtain ⟨⟨u2, _, h4⟩, h5, h6, h7⟩ := wait_spec h
      have hi2 : (Fifo.mk f1.there true f1.peer f1.buf f1.written).Inv [] := ⟨hi1.all, hi1.away⟩
      refine ⟨by omega, ?_, fun x y => (h7 x y).elim .inl (fun e => .inr (.inl e))⟩
      rintro rfl
      rcases h6 with ⟨_, hr⟩ | ⟨h, _⟩ | ⟨h, _⟩ | ⟨⟨w, h⟩, _⟩
      · have hi3 : f'.Inv [] := by rw [h4]; exact evs_inv u2 hi2
        refine ⟨hi3, fun hp => ?_⟩
        simp [Fifo.ready, hi3.away hp, hp] at hr
      · cases h
      · cases h
      · cases h
    · split at h
      · cases h
        exact ⟨Nat.zero_le _, by simp, fun _ _ => .inr (.inr rfl)⟩
      · rename_i hz
        rcases hs : Fifo.sleep es1 second f1 with ⟨f2, es2, t2⟩
        rw [hs] at h
        obtain ⟨⟨u2, _, h4⟩, h5⟩ := sleep_used _ _ _ _ _ _ hs
        simp only at h
        rcases ho : Fifo.openLoop fd timeout a f2 es2 with ⟨r3, f3, es3, t3⟩
        rw [ho] at h
        cases h
        obtain ⟨h6, h7⟩ := openLoop_spec a (by rw [h4]; exact evs_inv u2 hi1) ho
        refine ⟨?_, h7⟩
        obtain ⟨b, rfl⟩ : ∃ b, a = b + 1 := ⟨a - 1, by omega⟩
        simp only [Nat.add_sub_cancel, Nat.add_mul, Nat.one_mul] at h6 ⊢
        omega

theorem reads_spec {fd : Nat} {timeout : Int} : ∀ (ns : List Nat) {f f' : Fifo} {es es' : List FifoEv} {bs : List Bytes} {D : Bytes},
    f.Inv D → f.peer ≠ .away → f.reads fd timeout ns es = (bs, .ok (), f', es') →
    f'.Inv (D ++ bs.flatten) ∧ f'.peer ≠ .away
  | [], f, f', es, es', bs, D, hi, hp, h => by
    cases h
    exact ⟨by simpa using hi, hp⟩
  | n :: ns, f, f', es, es', bs, D, hi, hp, h => by
    unfold Fifo.reads at h
    rcases hr : f.read fd timeout n es with ⟨r, f1, es1, t⟩
    rw [hr] at h
    rcases (read_spec hi hp hr).2 with ⟨b, rfl, e1, e2, _⟩ | ⟨rfl, _⟩ | ⟨rfl, _⟩ | ⟨⟨w, rfl⟩, _⟩
    · simp only at h
      rcases hq : Fifo.reads fd timeout ns f1 es1 with ⟨bs2, r2, f2, es2⟩
      rw [hq] at h
      cases h
      have := reads_spec ns e1 e2 hq
      simpa [List.append_assoc] using this
    · simp at h
    · simp at h
    · simp at h

theorem session_inv {fd : Nat} {timeout : Int} {ns : List Nat} {bs : List Bytes} {f : Fifo} {es : List FifoEv}
    (h : FifoSession fd timeout ns bs f es) : f.Inv bs.flatten ∧ f.peer ≠ .away := by
  obtain ⟨all, f0, es0, t, h1, h2⟩ := h
  have hi : Fifo.init.Inv [] := ⟨rfl, fun _ => rfl⟩
  obtain ⟨h3, h4⟩ := (openLoop_spec 3 hi h1).2.1 rfl
  simpa using reads_spec ns h3 h4 h2

/-- Without signals a pause takes its time. -/
theorem sleep_full : ∀ (es : List FifoEv) (left : Nat) (f : Fifo), .signal ∉ es → (Fifo.sleep es left f).2.2 = left
  | es, left, f, h => by
    unfold Fifo.sleep
    split
    · rename_i hl
      exact hl.symm
    · rename_i hl
      cases es with
      | nil => rfl
      | cons e es =>
        have hs : .signal ∉ es := fun hm => h (by simp [hm])
        cases e with
        | tick =>
          have := sleep_full es (left - 1) f hs
          change (Fifo.sleep es (left - 1) f).2.2 + 1 = left
          rw [this]
          omega
        | signal => exact absurd (by simp) h
        | appear => exact sleep_full es left _ hs
        | connect => exact sleep_full es left _ hs
        | write b => exact sleep_full es left _ hs
        | close => exact sleep_full es left _ hs
        | go k => exact sleep_full es left _ hs

theorem openLoop_patient {fd : Nat} {timeout : Int} : ∀ (a : Nat) {f f' : Fifo} {es es' : List FifoEv} {r : FifoRes Unit} {t : Nat},
    Fifo.openLoop fd timeout (a + 1) f es = (r, f', es', t) →
    (r = .timedOut → timeout.toNat * second ≤ t ∧ f'.ready = false) ∧
    (r = .missing → f'.there = false ∧ (.signal ∉ es → t = a * second))
  | a, f, f', es, es', r, t, h => by
    obtain ⟨u, h1, h2⟩ := advance_used es f
    unfold Fifo.openLoop at h
    rcases ha : Fifo.advance es f with ⟨k, f1, es1⟩
    rw [ha] at h1 h2 h
    simp only at h1 h2 h
    split at h
    · obtain ⟨_, _, hc, _⟩ := wait_spec h
      rcases hc with ⟨rfl, _⟩ | ⟨rfl, _, e1, e2⟩ | ⟨rfl, _⟩ | ⟨⟨w, rfl⟩, _⟩
      · exact ⟨by simp, by simp⟩
      · exact ⟨fun _ => ⟨Nat.le_of_eq e2.symm, e1⟩, by simp⟩
      · exact ⟨by simp, by simp⟩
      · exact ⟨by simp, by simp⟩
    · rename_i ht
      split at h
      · rename_i ha0
        cases h
        subst ha0
        exact ⟨by simp, fun _ => ⟨by simpa using ht, fun _ => by simp⟩⟩
      · rename_i ha0
        obtain ⟨b, rfl⟩ : ∃ b, a = b + 1 := ⟨a - 1, by omega⟩
        rcases hs : Fifo.sleep es1 second f1 with ⟨f2, es2, t2⟩
        rcases ho : Fifo.openLoop fd timeout (b + 1) f2 es2 with ⟨r3, f3, es3, t3⟩
        rw [hs] at h
        simp only [ho] at h
        cases h
        obtain ⟨p1, p2⟩ := openLoop_patient b ho
        refine ⟨fun hr => ⟨by have := (p1 hr).1; omega, (p1 hr).2⟩, fun hr => ⟨(p2 hr).1, fun hn => ?_⟩⟩
        have n1 : .signal ∉ es1 := fun hm => hn (by rw [h1]; simp [hm])
        have q := sleep_full es1 second f1 n1
        rw [hs] at q
        simp only at q
        obtain ⟨⟨u2, e, _⟩, _⟩ := sleep_used _ _ _ _ _ _ hs
        have n2 : .signal ∉ es2 := fun hm => n1 (by rw [e]; simp [hm])
        have := (p2 hr).2 n2
        rw [Nat.add_mul, Nat.one_mul]
        omega

end Mlio
