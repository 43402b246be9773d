import Verif.Proofs.Fifo

/-! # C107: a SageMaker pipe delivers what was written, and does not keep its reader waiting for ever -/

namespace Mlio
open Spec

/-- C107 (contents): at any time, what the calls of `read` have returned is the beginning of what the service has written, in order;
the rest is still in the pipe. -/
theorem C107_delivers {fd : Nat} {timeout : Int} {ns : List Nat} {bs : List Bytes} {f : Fifo} {es : List FifoEv}
    (h : FifoSession fd timeout ns bs f es) : bs.flatten ++ f.buf = f.written :=
  (session_inv h).1.all

/-- C107 (end): a call of `read` that asks for bytes returns none only after the service has connected and closed its end and all that it wrote has been returned. -/
theorem C107_end {fd : Nat} {timeout : Int} {ns : List Nat} {bs : List Bytes} {f f' : Fifo} {es es' : List FifoEv} {n t : Nat}
    (h : FifoSession fd timeout ns bs f es) (hn : n ≠ 0) (hr : f.read fd timeout n es = (.ok [], f', es', t)) :
    f'.peer = .closed ∧ bs.flatten = f'.written := by
  obtain ⟨hi, hp⟩ := session_inv h
  rcases (read_spec hi hp hr).2 with ⟨b, hb, e1, _, _, e2⟩ | ⟨hb, _⟩ | ⟨hb, _⟩ | ⟨⟨w, hb⟩, _⟩
  · cases hb
    obtain ⟨e3, e4⟩ := e2 hn rfl
    have := e1.all
    rw [e3] at this
    exact ⟨e4, by simpa using this⟩
  · cases hb
  · cases hb
  · cases hb

/-- C107 (size): a call returns at most as many bytes as it was asked for. -/
theorem C107_size {fd : Nat} {timeout : Int} {ns : List Nat} {bs : List Bytes} {f f' : Fifo} {es es' : List FifoEv} {n t : Nat} {b : Bytes}
    (h : FifoSession fd timeout ns bs f es) (hr : f.read fd timeout n es = (.ok b, f', es', t)) : b.length ≤ n := by
  obtain ⟨hi, hp⟩ := session_inv h
  rcases (read_spec hi hp hr).2 with ⟨c, hb, _, _, e, _⟩ | ⟨hb, _⟩ | ⟨hb, _⟩ | ⟨⟨w, hb⟩, _⟩
  · cases hb; exact e
  · cases hb
  · cases hb
  · cases hb

/-- C107 (failures; partial: the number of the descriptor is below 1024): a call of `read` fails only if the service, still connected, has written
nothing for the whole of the time that was given; signals do not matter. -/
theorem C107_read_fails_partial {fd : Nat} {timeout : Int} {ns : List Nat} {bs : List Bytes} {f f' : Fifo} {es es' : List FifoEv} {n t : Nat} {r : FifoRes Bytes}
    (h : FifoSession fd timeout ns bs f es) (hfd : fd < 1024) (ht : 0 ≤ timeout)
    (hr : f.read fd timeout n es = (r, f', es', t)) :
    (∃ b, r = .ok b) ∨ (r = .timedOut ∧ f'.peer = .connected ∧ f'.written = f.written ∧ bs.flatten = f.written ∧ t = timeout.toNat * 1000000) := by
  obtain ⟨hi, hp⟩ := session_inv h
  rcases (read_spec hi hp hr).2 with ⟨b, hb, _⟩ | ⟨hb, _, e1, e2, e3, e4, e5⟩ | ⟨_, hb⟩ | ⟨_, hb⟩
  · exact .inl ⟨b, hb⟩
  · have h1 := e1.all
    have h2 := hi.all
    rw [e2, List.append_nil] at h1
    have h3 : f.buf = [] := by
      rw [← h1, ← h2, List.length_append] at e5
      exact List.length_eq_zero_iff.mp (by omega)
    rw [h3, List.append_nil] at h2
    exact .inr ⟨hb, e3, by rw [← h1, ← h2], h2, e4⟩
  · omega
  · exact absurd (show 1024 ≤ fd from hb) (by omega)

/-- C107 (time): a call waits for at most `timeout`, whatever the service does and however many signals are handled. -/
theorem C107_read_time {fd : Nat} {timeout : Int} {ns : List Nat} {bs : List Bytes} {f : Fifo} {es : List FifoEv} (n : Nat)
    (h : FifoSession fd timeout ns bs f es) : (f.read fd timeout n es).2.2.2 ≤ timeout.toNat * 1000000 := by
  obtain ⟨hi, hp⟩ := session_inv h
  exact (read_spec hi hp rfl).1

/-- C107 (time): opening the stream waits for at most `timeout` and two seconds. -/
theorem C107_open_time (fd : Nat) (timeout : Int) (es : List FifoEv) :
    (Fifo.init.open fd timeout es).2.2.2 ≤ 2 * 1000000 + timeout.toNat * 1000000 :=
  (openLoop_spec 3 (f := Fifo.init) ⟨rfl, fun _ => rfl⟩ rfl).1

/-- C107 (opening; partial: the number of the descriptor is below 1024): opening the stream succeeds, or fails because no data have come in time or
because the FIFO has not been made. -/
theorem C107_open_partial (fd : Nat) (timeout : Int) (es : List FifoEv) (hfd : fd < 1024) (ht : 0 ≤ timeout) :
    (Fifo.init.open fd timeout es).1 = .ok () ∨ (Fifo.init.open fd timeout es).1 = .timedOut ∨ (Fifo.init.open fd timeout es).1 = .missing :=
  (openLoop_spec 3 (f := Fifo.init) ⟨rfl, fun _ => rfl⟩ rfl).2.2 hfd ht

/-- C107 (patience; partial: no signal is handled during the pauses): opening the stream does not give up early.  It fails for want of data only after the whole `timeout`, when there are none, and for
want of the FIFO only after two seconds, when there is none. -/
theorem C107_open_patient_partial (fd : Nat) (timeout : Int) (es : List FifoEv) :
    ((Fifo.init.open fd timeout es).1 = .timedOut → timeout.toNat * 1000000 ≤ (Fifo.init.open fd timeout es).2.2.2 ∧
      (Fifo.init.open fd timeout es).2.1.buf = [] ∧ (Fifo.init.open fd timeout es).2.1.peer ≠ .closed) ∧
    ((Fifo.init.open fd timeout es).1 = .missing → (Fifo.init.open fd timeout es).2.1.there = false ∧
      (.signal ∉ es → (Fifo.init.open fd timeout es).2.2.2 = 2 * 1000000)) := by
  rcases ho : Fifo.init.open fd timeout es with ⟨r, f, es', t⟩
  obtain ⟨h1, h2⟩ := openLoop_patient 2 ho
  refine ⟨fun h => ⟨(h1 h).1, ?_⟩, h2⟩
  have hr := (h1 h).2
  unfold Fifo.ready at hr
  simpa [Bool.or_eq_false_iff] using hr

-- The FIFO is never made and nothing happens.
example : (Fifo.init.open 5 1 []).1 = .missing ∧ .signal ∉ ([] : List FifoEv) := by decide +kernel

/-- C107 (violated): a signal ends a pause.  With two of them opening fails at once, although the FIFO is made right after. -/
theorem C107_open_signals_violated (fd : Nat) (timeout : Int) (es : List FifoEv) :
    (Fifo.init.open fd timeout ([.go 0, .signal, .go 0, .signal, .go 0, .appear] ++ es)).1 = .missing ∧
      (Fifo.init.open fd timeout ([.go 0, .signal, .go 0, .signal, .go 0, .appear] ++ es)).2.2.2 = 0 := by
  simp [Fifo.open, Fifo.openLoop, Fifo.advance, Fifo.init, Fifo.sleep, second]

/-- C107 (violated): in a process with 1024 files open, opening a pipe has undefined behaviour. -/
theorem C107_open_violated (fd : Nat) (hfd : 1024 ≤ fd) (timeout : Int) (f : Fifo) (hf : f.there = true) (es : List FifoEv) :
    ∃ w, (f.open fd timeout es).1 = .ub w := by
  have key : ∀ (es : List FifoEv) (f : Fifo), f.there = true → (Fifo.advance es f).2.1.there = true := by
    intro es
    induction es with
    | nil => exact fun f h => h
    | cons e es ih =>
      intro f h
      have h1 : (f.ev e).there = true := by
        cases e <;> simp only [Fifo.ev] <;> try exact h
        all_goals (split <;> exact h)
      cases e <;> simp only [Fifo.advance] <;> first | exact h | exact ih _ h1
  have hk := key es f hf
  unfold Fifo.open Fifo.openLoop
  rcases ha : Fifo.advance es f with ⟨k, f1, es1⟩
  rw [ha] at hk
  simp only at hk ⊢
  rw [if_pos hk]
  unfold Fifo.wait
  rw [if_pos (show fd ≥ fdSetSize from hfd)]
  exact ⟨_, rfl⟩

/-- C107 (the time given in Python; partial: whole seconds): it is the time that calls wait for. -/
theorem C107_timedelta_partial (us : Int) (h : 1000000 ∣ us) : pyTimeout us * 1000000 = us := by
  unfold pyTimeout
  exact Int.tdiv_mul_cancel h

/-- C107 (violated): with a time below a second, opening fails at once unless the data are already there, and so does reading. -/
theorem C107_timedelta_violated (fd : Nat) (hfd : fd < 1024) (us : Int) (h0 : 0 ≤ us) (h1 : us < 1000000) (f : Fifo) (hf : f.there = true)
    (hr : f.ready = false) (k : Nat) (es : List FifoEv) :
    (f.open fd (pyTimeout us) (.go k :: es)).1 = .timedOut ∧ (f.open fd (pyTimeout us) (.go k :: es)).2.2.2 = 0 := by
  have ht : pyTimeout us = 0 := Int.tdiv_eq_zero_of_lt h0 h1
  have hr' : Fifo.ready ⟨true, true, f.peer, f.buf, f.written⟩ = false := hr
  have hs : ∀ es g, Fifo.ready g = false → Fifo.select es 0 g = (false, g, es, 0) := by
    intro es g hg
    unfold Fifo.select
    simp [hg]
  unfold Fifo.open Fifo.openLoop
  simp only [Fifo.advance, hf, if_true]
  unfold Fifo.wait
  rw [if_neg (show ¬ fd ≥ fdSetSize by unfold fdSetSize; omega), ht]
  simp [hs es _ hr']

/-- The FIFO is made after the first attempt; the service then connects and writes, closes its end in the end. -/
def fifoHistory : List FifoEv :=
  [.go 0, .tick, .appear, .signal, .go 0, .tick, .connect, .signal, .tick, .write [1, 2, 3], .go 1, .go 0, .signal, .go 0, .go 0, .tick, .write [4], .close]

-- Opened at the second attempt; the bytes come in order, then the end.
example : ∃ f es, FifoSession 5 1 [8, 1, 1, 8] [[1, 2], [3], [4], []] f es :=
  ⟨_, _, fifoHistory, _, _, _, rfl, rfl⟩

-- No data for a second.
example : (Fifo.read 5 1 8 ⟨true, true, .connected, [], [1]⟩ [.signal, .tick]).1 = .timedOut := by decide +kernel

-- The FIFO is never made.
example : (Fifo.init.open 5 1 []).1 = .missing := by decide +kernel

end Mlio
