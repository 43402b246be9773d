import Verif.Proofs.Sagemaker

/-!
# SageMaker pipe channels: C48
-/

namespace Mlio
open Spec

/-- C48: in every history in which no stream is constructed for a channel while an earlier one is closed but not yet
destructed, and numbers that are given explicitly are larger than those used before, at any time at most one stream
holds a channel, and the numbers of the FIFOs of a channel are strictly increasing.  Missing: histories in which a
stream is constructed between `close` and the destructor of another (see `C48_reopen_violated`). -/
theorem C48_exclusive_partial (os : List SmOp) (h : Careful FreshNumbers SmState.init os) :
    Exclusive (SmState.init.run os) ∧ ∀ path, (numbersOf (SmState.init.run os) path).Pairwise (· < ·) := by
  have inv := smInv_run FreshNumbers (fun _ _ _ h => h) os _ smInv_init h
  refine ⟨fun i j a b ha hb h1 h2 hp => inv.one i j a b ha hb ?_ ?_ hp, inv.incr⟩
  · unfold HoldsChannel at h1; rcases h1 with h' | h' <;> simp [h']
  · unfold HoldsChannel at h2; rcases h2 with h' | h' <;> simp [h']

/-- C48: after such a history a channel that no stream holds can be opened again, and one that a stream holds cannot. -/
theorem C48_reopen_partial (os : List SmOp) (h : Careful FreshNumbers SmState.init os) (path : Bytes) (fifo : Option Nat)
    (hp : validateFilePath path = .ok ()) (s' : SmState) (r : Res Unit)
    (hs : (SmState.init.run os).step (.make path fifo) = some (s', r)) :
    r = .ok () ↔ ∀ st ∈ (SmState.init.run os).streams, HoldsChannel st → st.path ≠ path := by
  have inv := smInv_run FreshNumbers (fun _ _ _ h => h) os _ smInv_init h
  simp only [SmState.step, hp] at hs
  constructor
  · intro hr st hst hh he
    obtain ⟨i, hi⟩ := List.getElem?_of_mem hst
    have := inv.taken i st hi hh
    rw [he] at this
    rw [if_pos this] at hs
    simp only [Option.some.injEq, Prod.mk.injEq] at hs
    rw [← hs.2] at hr
    cases hr
  · intro hno
    have := (inv.free path (fun i a ha hh => hno a (List.mem_of_getElem? ha) hh)).1
    rw [if_neg (by omega)] at hs
    simp only [Option.some.injEq, Prod.mk.injEq] at hs
    exact hs.2.symm

/-- Two streams of `p` one after the other, one of `q` at the same time; opening `p` again in between is refused. -/
def exSm : List SmOp :=
  [.make [112] none, .openOk 0, .make [113] (some 7), .make [112] none, .openTimeout 1, .close 0, .destroy 0,
    .make [112] none, .openOk 2]

theorem exSm_careful : Careful FreshNumbers SmState.init exSm := by
  simp [Careful, exSm, SmState.step, SmState.init, validateFilePath, SmState.release, FreshNumbers, numbersOf]

example : Careful FreshNumbers SmState.init exSm ∧ numbersOf (SmState.init.run exSm) [112] = [0, 1] ∧
    numbersOf (SmState.init.run exSm) [113] = [7] ∧
    (SmState.init.run exSm).streams.map (·.phase) = [.gone, .gone, .opened] := by
  exact ⟨exSm_careful, by decide, by decide, by decide⟩

/-- C48 fails if a stream is closed, another one is constructed, and then the first one is destructed: closing happens
again in the destructor and gives the channel away.  A third stream opens the channel while the second is open, and
the FIFO with the number one is opened twice. -/
theorem C48_reopen_violated : ∃ os : List SmOp, ¬ Exclusive (SmState.init.run os) ∧
    numbersOf (SmState.init.run os) [112] = [0, 1, 1] := by
  refine ⟨[.make [112] none, .openOk 0, .close 0, .make [112] none, .openOk 1, .destroy 0, .make [112] none, .openOk 2],
    ?_, by decide⟩
  intro h
  have := h 1 2 ⟨[112], 2, .opened⟩ ⟨[112], 2, .opened⟩ (by decide) (by decide) (Or.inr rfl) (Or.inr rfl) rfl
  omega

/-- The channel is marked as taken, and no stream will ever give it back. -/
def Stuck (path : Bytes) (s : SmState) : Prop := s.ids path = -1 ∧ ∀ st ∈ s.streams, st.path = path → st.phase = .gone

theorem stuck_step (path : Bytes) (s s' : SmState) (o : SmOp) (r : Res Unit) (h : Stuck path s) (hs : s.step o = some (s', r)) :
    Stuck path s' := by
  have rel : ∀ (i : Nat) (st st' : SmStream) (ph : SmPhase), s.streams[i]? = some st → st.phase ≠ .gone → st'.path = st.path →
      Stuck path (s.release i st' ph) := by
    intro i st st' ph hi hp e
    have hne : path ≠ st'.path := fun hpe => hp (h.2 st (List.mem_of_getElem? hi) (by rw [hpe, e]))
    refine ⟨by simp only [SmState.release]; rw [if_neg hne]; exact h.1, fun x hx hxp => ?_⟩
    rcases List.mem_or_eq_of_mem_set hx with hx | rfl
    · exact h.2 x hx hxp
    · exact absurd hxp.symm hne
  cases o with
  | make q fifo =>
    simp only [SmState.step] at hs
    split at hs
    · cases hs; exact h
    · cases hs; exact h
    · split at hs
      · cases hs; exact h
      · rename_i hq
        simp only [Option.some.injEq, Prod.mk.injEq] at hs
        rw [← hs.1]
        have hne : q ≠ path := by
          rintro rfl
          exact hq h.1
        refine ⟨by simp only []; rw [if_neg (Ne.symm hne)]; exact h.1, fun x hx hxp => ?_⟩
        rcases List.mem_append.1 hx with hx | hx
        · exact h.2 x hx hxp
        · simp only [List.mem_singleton] at hx
          rw [hx] at hxp
          exact absurd hxp hne
  | openOk i =>
    simp only [SmState.step] at hs
    split at hs
    · rename_i st hi
      split at hs
      · rename_i hp
        simp only [Option.some.injEq, Prod.mk.injEq] at hs
        rw [← hs.1]
        refine ⟨h.1, fun x hx hxp => ?_⟩
        rcases List.mem_or_eq_of_mem_set hx with hx | rfl
        · exact h.2 x hx hxp
        · have := h.2 st (List.mem_of_getElem? hi) hxp
          rw [hp] at this
          cases this
      · cases hs
    · cases hs
  | openTimeout i =>
    simp only [SmState.step] at hs
    split at hs
    · rename_i st hi
      split at hs
      · rename_i hp
        simp only [Option.some.injEq, Prod.mk.injEq] at hs
        rw [← hs.1]
        exact rel i st { st with id := st.id + 1 } .gone hi (by rw [hp]; decide) rfl
      · cases hs
    · cases hs
  | openFail i =>
    simp only [SmState.step] at hs
    split at hs
    · rename_i st hi
      split at hs
      · rename_i hp
        simp only [Option.some.injEq, Prod.mk.injEq] at hs
        rw [← hs.1]
        exact rel i st st .gone hi (by rw [hp]; decide) rfl
      · cases hs
    · cases hs
  | close i =>
    simp only [SmState.step] at hs
    split at hs
    · rename_i st hi
      split at hs
      · rename_i hp
        simp only [Option.some.injEq, Prod.mk.injEq] at hs
        rw [← hs.1]
        exact rel i st st .closed hi (by rcases hp with hp | hp <;> rw [hp] <;> decide) rfl
      · cases hs
    · cases hs
  | destroy i =>
    simp only [SmState.step] at hs
    split at hs
    · rename_i st hi
      split at hs
      · rename_i hp
        simp only [Option.some.injEq, Prod.mk.injEq] at hs
        rw [← hs.1]
        exact rel i st st .gone hi (by rcases hp with hp | hp <;> rw [hp] <;> decide) rfl
      · cases hs
    · cases hs

theorem stuck_run (path : Bytes) : ∀ (os : List SmOp) (s : SmState), Stuck path s → Stuck path (s.run os)
  | [], _, h => h
  | o :: os, s, h => by
    unfold SmState.run
    split
    · rename_i s' r hs
      exact stuck_run path os s' (stuck_step path s s' o r h hs)
    · exact stuck_run path os s h

/-- C48 fails for the numbers 2^64 - 1 and 2^64 - 2, which are taken as -1 and -2.  A stream with one of them that could not be
opened, or was opened, closed and destructed, leaves the channel marked as taken: although no stream holds it, no stream can be
constructed for it any more, whatever happens later. -/
theorem C48_number_violated (path : Bytes) (hp : validateFilePath path = .ok ()) (os : List SmOp) (fifo : Option Nat) :
    let a := SmState.init.run (.make path (some (2 ^ 64 - 1)) :: .openFail 0 :: os)
    let b := SmState.init.run (.make path (some (2 ^ 64 - 2)) :: .openOk 0 :: .destroy 0 :: os)
    (a.step (.make path fifo) = some (a, .err .systemError) ∧ ∀ st ∈ a.streams, HoldsChannel st → st.path ≠ path) ∧
      b.step (.make path fifo) = some (b, .err .systemError) ∧ ∀ st ∈ b.streams, HoldsChannel st → st.path ≠ path := by
  have key : ∀ s, Stuck path s → s.step (.make path fifo) = some (s, .err .systemError) ∧
      ∀ st ∈ s.streams, HoldsChannel st → st.path ≠ path := by
    intro s h
    refine ⟨by simp only [SmState.step, hp, h.1]; rfl, fun st hst hh he => ?_⟩
    have := h.2 st hst he
    unfold HoldsChannel at hh
    rw [this] at hh
    rcases hh with hh | hh <;> cases hh
  intro a b
  refine ⟨key a ?_, key b ?_⟩
  · have : a = SmState.run (SmState.run SmState.init [.make path (some (2 ^ 64 - 1)), .openFail 0]) os := by
      simp [a, SmState.run, SmState.step, SmState.init, hp, SmState.release]
    rw [this]
    refine stuck_run path os _ ?_
    simp [SmState.run, SmState.step, SmState.init, hp, SmState.release, Stuck, smAsSsize]
  · have : b = SmState.run (SmState.run SmState.init [.make path (some (2 ^ 64 - 2)), .openOk 0, .destroy 0]) os := by
      simp [b, SmState.run, SmState.step, SmState.init, hp, SmState.release]
    rw [this]
    refine stuck_run path os _ ?_
    simp [SmState.run, SmState.step, SmState.init, hp, SmState.release, Stuck, smAsSsize]

example : validateFilePath [112] = .ok () := by decide

/-- C48: a read of an open stream returns the data of the pipe, at the first or second attempt, or at the third after
waiting successfully; a read of a stream that is not open fails. -/
theorem C48_read (n : Nat) (hn : n ≠ 0) (wait : Bool) (b : Bytes) (rs : List PipeRead) :
    (smRead true n wait rs = .ok b ↔
      ∃ k rs', rs = List.replicate k .again ++ .bytes b :: rs' ∧ k ≤ 2 ∧ (k = 2 → wait = true)) ∧
    smRead false n wait rs = .err .streamError := by
  refine ⟨?_, rfl⟩
  constructor
  · intro h
    rcases rs with _ | ⟨_ | _ | _, _ | ⟨_ | _ | _, _ | ⟨_ | _ | _, rs⟩⟩⟩ <;> cases wait <;> simp [smRead, smReadLoop, hn] at h
    all_goals subst h
    all_goals first
      | exact ⟨0, _, rfl, by decide, by decide⟩
      | exact ⟨1, _, rfl, by decide, by decide⟩
      | exact ⟨2, _, rfl, by decide, fun _ => rfl⟩
  · rintro ⟨k, rs', rfl, hk, hw⟩
    rcases k with _ | _ | _ | k
    · simp [smRead, smReadLoop, hn]
    · simp [smRead, smReadLoop, hn, List.replicate]
    · simp [smRead, smReadLoop, hn, List.replicate, hw rfl]
    · omega

example : smRead true 5 true [.again, .again, .bytes [1], .failed] = .ok [1] ∧
    smRead true 5 true [.again, .again, .again, .bytes [1]] = .err .systemError := by decide

end Mlio
