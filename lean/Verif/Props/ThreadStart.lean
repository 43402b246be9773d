import Verif.Model.ThreadStart
import Verif.Proofs.SchemaReader

/-! # C73: a background thread that cannot be started -/

namespace Mlio
open Spec Machine

section
variable {α ε : Type} {m : Machine (Batch α)} {P Q : Nat} {size : α → Nat} {dec : Batch α → Except Err (Option ε)}

/-- This move meets no fault of the system. -/
def ThrAct.smooth : ThrAct → Prop
  | .call _ f => f = .none
  | .act _ => True

theorem DReachable.snoc {d d' : DState m ε} (h : DReachable P Q size dec d) {a : DAct} (hd : dstep P Q size dec a d = some d') :
    DReachable P Q size dec d' := by
  obtain ⟨as, h⟩ := h
  refine ⟨as ++ [a], ?_⟩
  have key : ∀ (as : List DAct) (d0 : DState m ε), drun P Q size dec as d0 = some d → drun P Q size dec (as ++ [a]) d0 = some d' := by
    intro as
    induction as with
    | nil => intro d0 h; simp [drun] at h; subst h; simp [drun, hd]
    | cons b as ih =>
      intro d0 h
      simp only [drun, Option.bind_eq_some_iff, List.cons_append] at h ⊢
      obtain ⟨d1, h1, h2⟩ := h
      exact ⟨d1, h1, ih d1 h2⟩
  exact key as _ h

theorem settle_p (d : DState m ε) (p : PState m ε) : (d.settle p).p = p := by
  unfold DState.settle
  split
  · split <;> rfl
  · rfl

/-- The invariant of runs without faults. -/
structure ThrInv (P Q : Nat) (size : α → Nat) (dec : Batch α → Except Err (Option ε)) (mask : SigMask) (t : ThrState m ε) : Prop where
  alive : t.terminated = false
  mask : t.mask = mask
  reach : DReachable P Q size dec t.d
  thread : t.thread = true ↔ t.d.p.status ≠ .notStarted

theorem ThrInv.step {mask : SigMask} {t t' : ThrState m ε} (h : ThrInv P Q size dec mask t) {a : ThrAct} (ha : a.smooth)
    (ht : thrStep P Q size dec a t = some t') : ThrInv P Q size dec mask t' := by
  unfold thrStep at ht
  rw [if_neg (by rw [h.alive]; simp)] at ht
  match a with
  | .call c f =>
    simp only [ThrAct.smooth] at ha
    subst ha
    simp only [startThread] at ht
    split at ht
    · rename_i hs
      simp only [Option.map_eq_some_iff] at ht
      obtain ⟨d, hd, rfl⟩ := ht
      refine ⟨h.alive, h.mask, h.reach.snoc (a := .call c) hd, by
        simp only [DState.starts, Bool.and_eq_true, decide_eq_true_eq, Option.isNone_iff_eq_none] at hs
        obtain ⟨⟨⟨h1, h2⟩, h3⟩, h4⟩ := hs
        simp only [dCall, h3, if_true, h1, pCallRead, h2, h4, Option.map_some, Option.some.injEq] at hd
        rw [← hd]
        simp [DState.settle]⟩
    · simp at ht
  | .act (.call c) =>
    simp only at ht
    split at ht
    · simp at ht
    · rename_i hs
      simp only [Option.map_eq_some_iff] at ht
      obtain ⟨d, hd, rfl⟩ := ht
      refine ⟨h.alive, h.mask, h.reach.snoc (a := .call c) hd, ?_⟩
      rw [show d.p.status = t.d.p.status from ?_]
      · exact h.thread
      · unfold dCall at hd
        split at hd
        · rename_i hi
          split at hd
          · simp only [Option.some.injEq] at hd; rw [← hd]
          · simp only [Option.some.injEq] at hd; rw [← hd]
          · rename_i hpk
            simp only [Option.map_eq_some_iff] at hd
            obtain ⟨p, hp, rfl⟩ := hd
            rw [settle_p]
            unfold pCallRead at hp
            rw [if_pos hi] at hp
            split at hp
            · rename_i hr
              split at hp
              · rename_i hn
                exact absurd (by simp [DState.starts, hpk, hi, hr, hn]) hs
              · simp only [Option.some.injEq] at hp; rw [← hp]
            · simp only [Option.some.injEq] at hp
              rw [← hp]
              unfold pPop
              split <;> rfl
        · simp at hd
  | .act .reset =>
    simp only at ht
    split at ht
    · rename_i hx
      exact absurd (h.thread.2 hx.2.1) (by rw [hx.2.2]; simp)
    · simp only [Option.map_eq_some_iff] at ht
      obtain ⟨d, hd, rfl⟩ := ht
      refine ⟨h.alive, h.mask, h.reach.snoc (a := .reset) hd, ?_⟩
      rw [show (d.p.status ≠ .notStarted ↔ t.d.p.status ≠ .notStarted) from ?_]
      · exact h.thread
      · simp only [dstep, Option.map_eq_some_iff] at hd
        obtain ⟨p, hp, rfl⟩ := hd
        unfold pCallReset at hp
        split at hp
        · split at hp <;> simp only [Option.some.injEq] at hp <;> subst hp
          · rename_i hn; simp [PState.afterStop, DState.afterReset, hn]
          · rename_i hn; simp
        · simp at hp
  | .act (.sys a) =>
    simp only at ht
    by_cases hc : a = .cStep
    · rw [if_pos hc] at ht
      simp only [Option.map_eq_some_iff] at ht
      obtain ⟨d, hd, rfl⟩ := ht
      refine ⟨h.alive, h.mask, h.reach.snoc hd, ?_⟩
      subst hc
      have hp : ∃ p, pstep P Q dec .cStep t.d.p = some p ∧ d.p = p := by
        simp only [dstep, PAct.isCall, Bool.false_eq_true, if_false, Option.map_eq_some_iff] at hd
        obtain ⟨p, hp, rfl⟩ := hd
        exact ⟨p, hp, by simp [settle_p]⟩
      obtain ⟨p, hp, hdp⟩ := hp
      obtain ⟨_, h1, h2, _⟩ := pstep_src hp (by simp) (by simp)
      rw [← hdp] at h1 h2
      refine h.thread.trans ⟨h1, fun hn hx => ?_⟩
      have := h2 hx hn
      simp at this
    · rw [if_neg hc] at ht
      by_cases hj : a = .cJoin
      · rw [if_pos hj] at ht
        simp only [Option.map_eq_some_iff] at ht
        obtain ⟨d, hd, rfl⟩ := ht
        refine ⟨h.alive, h.mask, h.reach.snoc hd, ?_⟩
        subst hj
        simp only [dstep, PAct.isCall, Bool.false_eq_true, if_false, if_true, Option.map_eq_some_iff, pstep, pCJoin] at hd
        obtain ⟨p, hp, rfl⟩ := hd
        split at hp
        · simp only [Option.some.injEq] at hp
          subst hp
          simp [PState.afterStop, DState.afterReset]
        · simp at hp
      · rw [if_neg hj] at ht
        split at ht
        · rename_i hth
          simp only [Option.map_eq_some_iff] at ht
          obtain ⟨d, hd, rfl⟩ := ht
          refine ⟨h.alive, h.mask, h.reach.snoc hd, iff_of_true hth ?_⟩
          simp only [dstep] at hd
          split at hd
          · simp at hd
          · rename_i hcall
            simp only [Option.map_eq_some_iff] at hd
            obtain ⟨p, hp, rfl⟩ := hd
            show (DState.settle _ p).p.status ≠ _
            rw [settle_p]
            refine (pstep_src hp hj ?_).2.1 (h.thread.1 hth)
            rintro rfl
            simp [PAct.isCall] at hcall
        · simp at ht

/-- **C73**, the part that holds: if the system does not refuse, the process lives, the user's thread has the signal mask that it
had, and the reader is in a state of the model of C70 - whatever the calls and the schedule. -/
theorem C73_no_fault_partial (mask : SigMask) (as : List ThrAct) (hs : ∀ a ∈ as, a.smooth) (t : ThrState m ε)
    (hrun : thrRun P Q size dec as (ThrState.init m ε mask) = some t) :
    t.terminated = false ∧ t.mask = mask ∧ DReachable P Q size dec t.d := by
  have key : ∀ (as : List ThrAct), (∀ a ∈ as, a.smooth) → ∀ t0 : ThrState m ε, ThrInv P Q size dec mask t0 →
      thrRun P Q size dec as t0 = some t → ThrInv P Q size dec mask t := by
    intro as
    induction as with
    | nil => intro _ t0 h0 h; simp [thrRun] at h; subst h; exact h0
    | cons a as ih =>
      intro hs t0 h0 h
      simp only [thrRun, Option.bind_eq_some_iff] at h
      obtain ⟨t1, h1, h2⟩ := h
      exact ih (fun a ha => hs a (List.mem_cons_of_mem _ ha)) t1 (h0.step (hs a (List.mem_cons_self ..)) h1) h2
  have := key as hs _ ⟨rfl, rfl, ⟨[], rfl⟩, by simp [ThrState.init, DState.init, PState.init]⟩ hrun
  exact ⟨this.alive, this.mask, this.reach⟩

/-- **C73**: the new thread blocks all signals, so that the user's threads get them. -/
theorem C73_new_thread_blocks (mask : SigMask) :
    ∃ all, startThread .none mask = (.thread all, mask) ∧ ∀ sig, all sig = true := ⟨_, rfl, fun _ => rfl⟩

/-- **C73**: a call that cannot start the thread reports it. -/
theorem C73_reported (f : StartFault) (hf : f = .blockSignals ∨ f = .create) (c : ReadCall) (t : ThrState m ε) (ha : t.terminated = false)
    (hs : t.d.starts = true) :
    ∃ t', thrStep P Q size dec (.call c f) t = some t' ∧ t'.d.hist = t.d.hist ++ [(c, .err .systemError)] := by
  rcases hf with rfl | rfl <;> exact ⟨_, by simp only [thrStep, ha, hs, startThread]; rfl, rfl⟩

/-- **C73 is false**: if the thread cannot be created, the user's thread blocks all signals from then on. -/
theorem C73_mask_violated (c : ReadCall) :
    ∃ t, thrStep P Q size dec (.call c .create) (ThrState.init m ε fun _ => false) = some t ∧ ∀ sig, t.mask sig = true :=
  ⟨_, rfl, fun _ => rfl⟩

/-- **C73 is false**: if a call has failed to start the thread, the next call never returns: whatever happens, it goes on
waiting for a thread that does not exist. -/
theorem C73_hang_violated (mask : SigMask) (f : StartFault) (hf : f = .blockSignals ∨ f = .create) (c c' : ReadCall) :
    ∃ t1 t2, thrStep P Q size dec (.call c f) (ThrState.init m ε mask) = some t1 ∧
      thrStep P Q size dec (.act (.call c')) t1 = some t2 ∧
      ∀ as t, thrRun P Q size dec as t2 = some t → t.d.p.consumer = .waiting ∧ t.d.hist = [(c, .err .systemError)] := by
  have stuck : ∀ (as : List ThrAct) (t2 t : ThrState m ε), t2.d.p.consumer = .waiting → t2.d.p.status = .running → t2.d.p.fill = [] →
      t2.thread = false → thrRun P Q size dec as t2 = some t → t.d.p.consumer = .waiting ∧ t.d.hist = t2.d.hist := by
    intro as
    induction as with
    | nil => intro t2 t h1 _ _ _ h; simp [thrRun] at h; subst h; exact ⟨h1, rfl⟩
    | cons a as ih =>
      intro t2 t h1 h2 h3 h4 h
      simp only [thrRun, Option.bind_eq_some_iff] at h
      obtain ⟨t3, h5, h6⟩ := h
      unfold thrStep at h5
      split at h5
      · simp at h5
      · match a with
        | .call c f => simp [DState.starts, h1] at h5
        | .act (.call c) => simp [DState.starts, h1, dCall] at h5
        | .act .reset => simp [h1, dstep, pCallReset] at h5
        | .act (.sys a) =>
          simp only [h4, Bool.false_eq_true, if_false] at h5
          by_cases hc : a = .cStep
          · subst hc
            simp only [if_true, Option.map_eq_some_iff, dstep, PAct.isCall, Bool.false_eq_true, if_false, pstep, pCStep, h1, h2, h3] at h5
            obtain ⟨d, ⟨p, hp, hd⟩, rfl⟩ := h5
            simp at hp
            obtain ⟨_, hp⟩ := hp
            rw [if_neg (by simp)] at hd
            rw [settle_same _ p (fun hx => by rw [← hp] at hx; simp [h1] at hx)] at hd
            subst hd
            have hpc : p.consumer = .waiting ∧ p.status = .running ∧ p.fill = [] := by
              rw [← hp]; exact ⟨rfl, rfl, rfl⟩
            have h7 := ih _ t (by exact hpc.1) (by exact hpc.2.1) (by exact hpc.2.2) (by rfl) h6
            exact h7
          · rw [if_neg hc] at h5
            by_cases hj : a = .cJoin
            · subst hj
              simp [dstep, PAct.isCall, pstep, pCJoin, h1] at h5
            · simp [hj] at h5
  rcases hf with rfl | rfl
  · refine ⟨_, _, rfl, rfl, fun as t h => ?_⟩
    exact stuck as _ t rfl rfl rfl rfl h
  · refine ⟨_, _, rfl, rfl, fun as t h => ?_⟩
    exact stuck as _ t rfl rfl rfl rfl h

/-- **C73 is false**: if a call has failed to start the thread, `reset` (and so the destructor, which also calls `stop`)
terminates the process. -/
theorem C73_reset_violated (mask : SigMask) (f : StartFault) (hf : f = .blockSignals ∨ f = .create) (c : ReadCall) :
    ∃ t1 t2, thrStep P Q size dec (.call c f) (ThrState.init m ε mask) = some t1 ∧
      thrStep P Q size dec (.act .reset) t1 = some t2 ∧ t2.terminated = true := by
  rcases hf with rfl | rfl <;> exact ⟨_, _, rfl, rfl, rfl⟩

/-- **C73 is false**: if the signal mask cannot be set back after the thread was started, the process ends, and nothing happens any more. -/
theorem C73_terminates_violated (mask : SigMask) (c : ReadCall) :
    ∃ t, thrStep P Q size dec (.call c .restoreSignals) (ThrState.init m ε mask) = some t ∧ t.terminated = true ∧
      ∀ a, thrStep P Q size dec a t = none :=
  ⟨_, rfl, rfl, fun _ => rfl⟩

end

-- Without faults a new reader reads both batches.
example : ((thrRun (m := twoBatches) 2 2 id (fun b => .ok (some b.index))
    [.call .read .none, .act (.sys .produce), .act (.sys .send), .act (.sys (.decode 0)), .act (.sys .forward), .act (.sys .qStart),
      .act (.sys .qStep), .act (.sys .cStep), .act .reset, .act (.sys .finish), .act (.sys .cJoin), .call .peek .none]
    (ThrState.init twoBatches Nat fun n => n == 2)).map fun t => (t.thread, t.mask 2, t.mask 3, t.terminated)) =
    some (true, true, false, false) := by rfl

-- The hypotheses of `C73_reported` are met by a new reader.
example : (ThrState.init twoBatches Nat fun _ => false).d.starts = true := by decide

end Mlio
