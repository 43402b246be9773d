import Verif.Proofs.Gil

/-! # C76: calls from Python return -/

namespace Mlio
open Spec Machine

section
variable {α ε : Type} {m : Machine (Batch α)} {P Q : Nat} {dec : Batch α → Except Err (Option ε)} {L : Logs m}

/-- **C76**, reading: while the user waits in `read_example`, something can happen, whatever is logged in the background. -/
theorem C76_read_no_deadlock (hP : 0 < P) (hQ : 0 < Q) (hm : Sources m) (g : GState m ε) (hr : GReachable resetReleases L P Q dec g)
    (hc : g.p.consumer = .waiting) : ∃ a g', a.isUser = false ∧ gstep resetReleases L P Q dec a g = some g' :=
  g_progress hP hQ hm hr (by rw [hc]; simp) (.inl ((greachable_inv hP hm hr).2.waiting hc))

/-- **C76**, reading: when nothing more can happen the call has returned, with one outcome, and the user's thread has the lock again. -/
theorem C76_read_returns (hP : 0 < P) (hQ : 0 < Q) (hm : Sources m) (g g' : GState m ε) (hr : GReachable resetReleases L P Q dec g)
    (hc : g.p.consumer = .waiting) (as : List GAct) (hall : ∀ a ∈ as, a.isUser = false)
    (hrun : grun resetReleases L P Q dec as g = some g') (hend : AtRest resetReleases L P Q dec g') :
    g'.p.consumer = .idle ∧ g'.held = true ∧ ∃ o, g'.p.out = g.p.out ++ [o] := by
  have hkeep : ∀ (as : List GAct) (g : GState m ε), (∀ a ∈ as, a.isUser = false) →
      (g.p.consumer = .waiting ∨ g.p.consumer = .idle ∧ g.held = true) → grun resetReleases L P Q dec as g = some g' →
      (g'.p.consumer = .waiting ∨ g'.p.consumer = .idle ∧ g'.held = true) := by
    intro as
    induction as with
    | nil => intro g _ h hr; simp [grun] at hr; subst hr; exact h
    | cons a as ih =>
      intro g hall h hr
      simp only [grun] at hr
      cases hs : gstep resetReleases L P Q dec a g with
      | none => rw [hs] at hr; simp at hr
      | some g1 =>
        rw [hs] at hr
        refine ih g1 (fun b hb => hall b (List.mem_cons_of_mem a hb)) ?_ hr
        have ha := hall a (List.mem_cons_self ..)
        by_cases hcs : a = .sys .cStep
        · subst hcs
          simp only [gstep] at hs
          obtain ⟨p, hp, rfl⟩ := Option.map_eq_some_iff.mp hs
          rcases (pCStep_same hp).2.2.2.2.2 with h6 | h6
          · exact .inr ⟨h6, by simp [h6]⟩
          · exact .inl h6
        · have hheld : g1.held = g.held ∨ a = .sys .cJoin := by
            cases a with
            | sys a =>
              simp only [gstep] at hs
              cases a <;> simp only at hs <;> (try split at hs) <;> first
                | (simp at hs; done)
                | (simp [GAct.isUser, PAct.isCall] at ha; done)
                | (exact absurd rfl hcs)
                | (obtain ⟨p, hp, rfl⟩ := Option.map_eq_some_iff.mp hs; exact .inl rfl)
                | (exact .inr rfl)
            | srcBegin => simp only [gstep] at hs; split at hs <;> simp at hs; subst hs; exact .inl rfl
            | srcLog =>
              simp only [gstep] at hs
              split at hs
              · split at hs <;> simp at hs; subst hs; exact .inl rfl
              · simp at hs
            | decBegin i =>
              simp only [gstep] at hs
              split at hs
              · split at hs <;> simp at hs; subst hs; exact .inl rfl
              · simp at hs
            | decLog i =>
              simp only [gstep] at hs
              split at hs
              · split at hs <;> simp at hs; subst hs; exact .inl rfl
              · simp at hs
            | switch => simp [GAct.isUser] at ha
          rcases gstep_proj hs with ⟨b, rfl, hb⟩ | ⟨_, hb⟩
          · rcases consumer_step ha hb with ⟨h1, _⟩ | ⟨h1, h2, o, h3⟩ | ⟨h1, _⟩
            · rcases hheld with hheld | hj
              · rw [h1, hheld]; exact h
              · cases hj
                simp only [pstep, pCJoin] at hb
                split at hb
                · rename_i hj; rcases h with h | ⟨h, _⟩ <;> rw [h] at hj <;> simp at hj
                · simp at hb
            · exfalso
              have hidle : b = .cStep := by
                cases b with
                | cStep => rfl
                | cJoin => simp [pstep, pCJoin, h1] at hb
                | callRead => simp [GAct.isUser, PAct.isCall] at ha
                | callReset => simp [GAct.isUser, PAct.isCall] at ha
                | produce => rw [(pProduce_some hb).2.1, h1] at h2; simp at h2
                | send => obtain ⟨_, _, _, hp⟩ := pSend_some hb; rw [hp] at h2; simp [h1] at h2
                | decode i => rw [(pDecode_some hb).2.2.2.2.2.2, h1] at h2; simp at h2
                | forward => rw [(quiet_step (by simp) hb).2.2.2.2.2, h1] at h2; simp at h2
                | qStart => rw [(quiet_step (by simp) hb).2.2.2.2.2, h1] at h2; simp at h2
                | qStep => rw [(quiet_step (by simp) hb).2.2.2.2.2, h1] at h2; simp at h2
                | dropQueue => rw [(quiet_step (by simp) hb).2.2.2.2.2, h1] at h2; simp at h2
                | dropDecode i =>
                  simp only [pstep] at hb
                  split at hb
                  · simp only [Option.some.injEq] at hb; rw [← hb] at h2; simp [h1] at h2
                  · simp at hb
                | finish =>
                  simp only [pstep, pFinish] at hb
                  split at hb
                  · simp only [Option.some.injEq] at hb; rw [← hb] at h2; simp [h1] at h2
                  · simp at hb
              exact hcs (by rw [hidle])
            · rcases h with h | ⟨h, _⟩ <;> rw [h] at h1 <;> simp at h1
          · rcases hheld with hheld | hj
            · rw [hb, hheld]; exact h
            · subst hj
              rename_i hne
              exact absurd rfl (hne _)
  rcases hkeep as g hall (.inl hc) hrun with hw | ⟨hi, hh⟩
  · exfalso
    obtain ⟨a, g'', h1, h2⟩ := C76_read_no_deadlock hP hQ hm g' (GReachable.run hr hrun) hw
    rw [hend a h1] at h2
    simp at h2
  · obtain ⟨bs, hb, hp⟩ := grun_proj as hall hrun
    exact ⟨hi, hh, (prun_out hi bs hb hp).1 hc⟩

/-- **C76**: there is no endless run in the background (so by the theorems on what the end of a run looks like the calls do return). -/
theorem C76_finite (hP : 0 < P) (hm : Sources m) (rel : Bool) (g : Nat → GState m ε) (hr : GReachable rel L P Q dec (g 0)) (as : Nat → GAct)
    (hu : ∀ n, (as n).isUser = false) (hs : ∀ n, gstep rel L P Q dec (as n) (g n) = some (g (n + 1))) : False := by
  have hreach : ∀ n, GReachable rel L P Q dec (g n) := by
    intro n
    induction n with
    | zero => exact hr
    | succ n ih => exact GReachable.snoc ih (hs n)
  obtain ⟨N, hN⟩ := C27_finite (Q := Q) (dec := dec) hP hm (g 0).p (greachable_inv hP hm hr).1
  -- the moves of the pipeline so far
  have hrun : ∀ n, ∃ bs, (∀ b ∈ bs, b.isCall = false) ∧ prun P Q dec bs (g 0).p = some (g n).p ∧
      bs.length = ((List.range n).filter fun i => match as i with | .sys _ => true | _ => false).length := by
    intro n
    induction n with
    | zero => exact ⟨[], by simp, rfl, rfl⟩
    | succ n ih =>
      obtain ⟨bs, h1, h2, h3⟩ := ih
      rw [List.range_succ, List.filter_append]
      rcases gstep_proj (hs n) with ⟨b, hb, hp⟩ | ⟨hb, hp⟩
      · refine ⟨bs ++ [b], ?_, ?_, ?_⟩
        · intro c hc
          rcases List.mem_append.mp hc with hc | hc
          · exact h1 c hc
          · have hu := hu n
            rw [hb] at hu
            simp at hc
            subst hc
            exact hu
        · rw [prun_append, h2, Option.bind_some, prun, hp]; rfl
        · simp [hb, h3]
      · refine ⟨bs, h1, hp ▸ h2, ?_⟩
        have : (match as n with | .sys _ => true | _ => false) = false := by
          cases h : as n with
          | sys b => exact absurd h (hb b)
          | _ => rfl
        simp [this, h3]
  -- so from some point on there is none
  have hlast : ∃ n0, ∀ n, n0 ≤ n → ∀ b, as n ≠ .sys b := by
    apply Classical.byContradiction
    intro hne
    have hmore : ∀ k, ∃ n, k ≤ ((List.range n).filter fun i => match as i with | .sys _ => true | _ => false).length := by
      intro k
      induction k with
      | zero => exact ⟨0, Nat.zero_le _⟩
      | succ k ih =>
        obtain ⟨n, hn⟩ := ih
        have : ∃ j, n ≤ j ∧ ∃ b, as j = .sys b := by
          apply Classical.byContradiction
          intro h
          exact hne ⟨n, fun j hj b hb => h ⟨j, hj, b, hb⟩⟩
        obtain ⟨j, hj, b, hb⟩ := this
        refine ⟨j + 1, ?_⟩
        rw [List.range_succ, List.filter_append, List.length_append]
        have h1 : ((List.range n).filter fun i => match as i with | .sys _ => true | _ => false).length ≤
            ((List.range j).filter fun i => match as i with | .sys _ => true | _ => false).length := by
          obtain ⟨d, rfl⟩ := Nat.exists_eq_add_of_le hj
          rw [List.range_add, List.filter_append, List.length_append]
          omega
        simp [hb]
        omega
    obtain ⟨n, hn⟩ := hmore (N + 1)
    obtain ⟨bs, h1, h2, h3⟩ := hrun n
    have := hN bs _ h1 h2
    omega
  obtain ⟨n0, hlast⟩ := hlast
  -- and what is left to log goes down for ever
  have hdown : ∀ k, (g (n0 + k)).logWork L + k ≤ (g n0).logWork L := by
    intro k
    induction k with
    | zero => exact Nat.le_refl _
    | succ k ih =>
      have := logWork_lt (hu (n0 + k)) (hlast (n0 + k) (by omega)) (greachable_inv hP hm (hreach (n0 + k))).2 (hs (n0 + k))
      rw [Nat.add_assoc] at this
      omega
  have := hdown ((g n0).logWork L + 1)
  omega

/-- **C76** for `reset`, the part that holds: if no body that is running when `reset` is called is going to log a message, then
when nothing more can happen `reset` has returned and the reader is like a new one.  (Missing: bodies that log, for which it is
false, see below.) -/
theorem C76_reset_returns_partial (hP : 0 < P) (hQ : 0 < Q) (hm : Sources m) (g g1 g2 : GState m ε)
    (hr : GReachable resetReleases L P Q dec g) (hcall : gstep resetReleases L P Q dec (.sys .callReset) g = some g1) (hl : ¬ WillLog g)
    (as : List GAct) (hall : ∀ a ∈ as, a.isUser = false) (hrun : grun resetReleases L P Q dec as g1 = some g2)
    (hend : AtRest resetReleases L P Q dec g2) : ∃ u, g2.p = { src := m.reset u, start := m.reset u } := by
  obtain ⟨_, _, hp, h1, h2, h3⟩ := callReset_some hcall
  have hw : ¬ WillLog g1 := by unfold WillLog; rw [h1, h2]; exact hl
  have hcalm : Calm g1 := by
    rcases h3 with ⟨_, h3⟩ | ⟨_, _, _, h3, _⟩
    · exact .inl h3
    · exact .inr ⟨h3, hw⟩
  have hidle : g2.p.consumer = .idle := by
    apply Classical.byContradiction
    intro hne
    have hw2 : ¬ WillLog g2 := ((hcalm.run hall hrun).resolve_left hne).2
    obtain ⟨a, g'', h4, h5⟩ := g_progress hP hQ hm (GReachable.run (GReachable.snoc hr hcall) hrun) hne (.inr hw2)
    rw [hend a h4] at h5
    simp at h5
  obtain ⟨bs, hb, hp2⟩ := grun_proj as hall hrun
  exact C29_reset g.p g1.p g2.p hp bs hb hp2 hidle

/-- **C76** is false of the code: if `reset` is called while a body that is running in the background is going to log a message, `reset` never
returns.  The user's thread keeps the interpreter lock while it joins the background thread, and the handler waits for that lock. -/
theorem C76_reset_hangs_violated (hP : 0 < P) (hm : Sources m) (g g1 : GState m ε) (hr : GReachable resetReleases L P Q dec g)
    (hcall : gstep resetReleases L P Q dec (.sys .callReset) g = some g1) (hl : WillLog g) : NeverReturns resetReleases L P Q dec g1 := by
  have hi := (greachable_inv hP hm hr).2
  have hrun : g.p.status = .running := by
    rcases hl with ⟨k, hk⟩ | ⟨k, hk⟩
    · exact (pProduce_running (hi.src (by rw [hk]; simp))).1
    · exact hi.run (fun h => by rw [h] at hk; simp at hk)
  obtain ⟨_, _, hp, h1, h2, h3⟩ := callReset_some hcall
  rcases h3 with ⟨h3, _⟩ | ⟨_, h4, h5, h6, h7, h8⟩
  · rw [h3] at hrun; simp at hrun
  · refine GHang.never ⟨by rw [h2, h8]; exact hi.len, h4, h5, h7.trans hrun, h6, ?_⟩
    unfold WillLog
    rw [h1, h2]
    exact hl

/-- With a binding that gives the lock away, `reset` would return whatever is logged: the lock is the only reason. -/
theorem C76_releasing (hP : 0 < P) (hQ : 0 < Q) (hm : Sources m) (g g1 g2 : GState m ε) (hr : GReachable true L P Q dec g)
    (hcall : gstep true L P Q dec (.sys .callReset) g = some g1) (as : List GAct) (hall : ∀ a ∈ as, a.isUser = false)
    (hrun : grun true L P Q dec as g1 = some g2) (hend : AtRest true L P Q dec g2) :
    ∃ u, g2.p = { src := m.reset u, start := m.reset u } := by
  obtain ⟨_, _, hp, _, _, _⟩ := callReset_some hcall
  have hr2 := GReachable.run (GReachable.snoc hr hcall) hrun
  have hidle : g2.p.consumer = .idle := by
    apply Classical.byContradiction
    intro hne
    have hi := (greachable_inv hP hm hr2).2
    have hh : g2.held = false := by
      cases hc : g2.p.consumer with
      | idle => exact absurd hc hne
      | waiting => exact hi.waiting hc
      | joining => exact hi.joining hc
    obtain ⟨a, g'', h4, h5⟩ := g_progress hP hQ hm hr2 hne (.inl hh)
    rw [hend a h4] at h5
    simp at h5
  obtain ⟨bs, hb, hp2⟩ := grun_proj as hall hrun
  exact C29_reset g.p g1.p g2.p hp bs hb hp2 hidle

/-- **C76**, without messages: if the level of the log is `off`, or there is no handler, then `reset` always returns.  `srcMsgs` and `decMsgs` are
the levels of the messages of the bodies; nothing is logged with the level `off`. -/
theorem C76_reset_returns_silent (hP : 0 < P) (hQ : 0 < Q) (hm : Sources m) (c : LogCfg) (hc : c.level = .off ∨ c.handler = false)
    (srcMsgs : m.σ → List LogLevel) (decMsgs : Batch α → List LogLevel) (hs : ∀ s, .off ∉ srcMsgs s) (hd : ∀ b, .off ∉ decMsgs b)
    (hL : L = ⟨fun s => c.count (srcMsgs s), fun b => c.count (decMsgs b)⟩) (g g1 g2 : GState m ε)
    (hr : GReachable resetReleases L P Q dec g) (hcall : gstep resetReleases L P Q dec (.sys .callReset) g = some g1)
    (as : List GAct) (hall : ∀ a ∈ as, a.isUser = false) (hrun : grun resetReleases L P Q dec as g1 = some g2)
    (hend : AtRest resetReleases L P Q dec g2) : ∃ u, g2.p = { src := m.reset u, start := m.reset u } := by
  have hzero : ∀ ls : List LogLevel, .off ∉ ls → c.count ls = 0 := by
    intro ls hls
    rw [LogCfg.count, List.length_eq_zero_iff, List.filter_eq_nil_iff]
    intro l hl
    rcases hc with hc | hc
    · have : l ≠ .off := fun h => hls (h ▸ hl)
      cases l <;> simp_all [LogCfg.calls, LogCfg.enabled, LogLevel.rank]
    · simp [LogCfg.calls, hc]
  have h0 : ∀ s, L.src s = 0 := fun s => by rw [hL]; exact hzero _ (hs s)
  have h1 : ∀ b, L.dec b = 0 := fun b => by rw [hL]; exact hzero _ (hd b)
  refine C76_reset_returns_partial hP hQ hm g g1 g2 hr hcall ?_ as hall hrun hend
  obtain ⟨bs, hb⟩ := hr
  have key : ∀ (bs : List GAct) (g0 : GState m ε), ¬ WillLog g0 → grun resetReleases L P Q dec bs g0 = some g → ¬ WillLog g := by
    intro bs
    induction bs with
    | nil => intro g0 h hb; simp [grun] at hb; subst hb; exact h
    | cons b bs ih =>
      intro g0 h hb
      simp only [grun] at hb
      cases hs : gstep resetReleases L P Q dec b g0 with
      | none => rw [hs] at hb; simp at hb
      | some g3 => rw [hs] at hb; exact ih g3 (silent_step h0 h1 h hs) hb
  refine key bs _ ?_ hb
  rintro (⟨k, hk⟩ | ⟨k, hk⟩) <;> simp [GState.init] at hk

end

/-! ## A dataset of three instances, read in examples of two with `last_example_handling` set to drop with a warning -/

abbrev warnReader : Machine (Batch Nat) := batched 2 .dropWarn (listMachine [1, 2, 3])

/-- The messages with what `import mlio` sets. -/
def warnLogs : Logs warnReader :=
  ⟨fun s => LogCfg.python.count (batchMessages 2 .dropWarn (listMachine [1, 2, 3]) s), fun _ => 0⟩

def firstDec (b : Batch Nat) : Except Err (Option Nat) := .ok b.instances.head?

/-- The first example is read; meanwhile the background thread has read the third instance and is about to log the warning. -/
def warnRun : List GAct :=
  [.sys .callRead, .srcBegin, .sys .produce, .sys .send, .decBegin 0, .sys (.decode 0), .sys .forward, .sys .qStart, .sys .qStep, .sys .cStep,
    .srcBegin]

theorem warnReader_sources : Sources warnReader := by
  have hr : (listMachine [1, 2, 3]).Resets := fun _ => rfl
  have hs : Source warnReader warnReader.init (batches 2 .dropWarn [1, 2, 3]) (.ok none) :=
    ⟨(C24_batches_partial _ _ (listMachine_yields _ _) 2 (by decide) .dropWarn (by decide)).readsTo,
      fun i q hq => ((C24_batches_meaning 2 (by decide) .dropWarn [1, 2, 3]).2 i q hq).1, Or.inl rfl⟩
  exact ⟨⟨_, _, hs⟩, fun u => ⟨_, _, (batched_resets hr 2 .dropWarn u).symm ▸ hs⟩⟩

/-- **C76** is false of the code for this dataset, in the way the package is imported: the user reads the first example, then calls `reset`, which never returns. -/
theorem C76_hangs_violated : ∃ g g1 : GState warnReader Nat, grun resetReleases warnLogs 1 1 firstDec warnRun (GState.init _ _) = some g ∧
    g.p.consumer = .idle ∧ g.p.out = [.ok (some 1)] ∧ gstep resetReleases warnLogs 1 1 firstDec (.sys .callReset) g = some g1 ∧
    NeverReturns resetReleases warnLogs 1 1 firstDec g1 ∧ AtRest resetReleases warnLogs 1 1 firstDec g1 := by
  refine ⟨_, _, rfl, rfl, rfl, rfl, ?_, ?_⟩
  · exact C76_reset_hangs_violated (by decide) warnReader_sources _ _ ⟨warnRun, rfl⟩ rfl (.inl ⟨0, rfl⟩)
  · intro a ha
    cases a with
    | sys a => cases a <;> first | rfl | (simp [GAct.isUser, PAct.isCall] at ha)
    | switch => rfl
    | srcBegin => rfl
    | srcLog => rfl
    | decBegin i => rfl
    | decLog i => rfl

-- Had the background thread been faster, or slower, `reset` would have returned.
example : ((grun resetReleases warnLogs 1 1 firstDec (warnRun ++ [.switch, .srcLog, .switch, .sys .callReset, .sys .produce, .sys .finish, .sys .cJoin])
    (GState.init warnReader Nat)).map fun g => (g.p.consumer, g.held)) = some (.idle, true) := rfl

example : ((grun resetReleases warnLogs 1 1 firstDec (warnRun.dropLast ++ [.sys .callReset, .sys .finish, .sys .cJoin])
    (GState.init warnReader Nat)).map fun g => (g.p.consumer, g.held)) = some (.idle, true) := rfl

-- With a `reset` that gives the lock away it returns.
example : ((grun true warnLogs 1 1 firstDec (warnRun ++ [.sys .callReset, .srcLog, .sys .produce, .sys .finish, .sys .cJoin])
    (GState.init warnReader Nat)).map fun g => (g.p.consumer, g.held)) = some (.idle, true) := rfl

-- Reading on after the first example: the warning is logged while the user waits, and the call returns the end of the data.
example : ((grun resetReleases warnLogs 1 1 firstDec (warnRun ++ [.sys .callRead, .sys .cStep, .srcLog, .sys .produce, .sys .finish, .sys .cStep])
    (GState.init warnReader Nat)).map fun g => (g.p.consumer, g.held, g.p.out)) = some (.idle, true, [.ok (some 1), .ok none]) := rfl

end Mlio
