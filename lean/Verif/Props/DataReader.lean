import Verif.Proofs.DataReader

/-! # C70: reading, peeking, resetting and counting bytes -/

namespace Mlio
open Spec Machine

section
variable {α ε : Type} {m : Machine (Batch α)} {P Q : Nat} {size : α → Nat} {dec : Batch α → Except Err (Option ε)}

/-- **C70.** In every state that any schedule and any mix of calls lead to, the calls of `read_example` and
`peek_example` of this epoch have returned what the examples of the dataset say: each call the first example that
is not consumed, where only `read_example` consumes; the end only when all are consumed and
nothing fails; an error only if the dataset has it; after the end or an error the same for ever. -/
theorem C70_session (hP : 0 < P) (hm : Sources m) (d : DState m ε) (hr : DReachable P Q size dec d) :
    ∃ bs t, Source m d.p.start bs t ∧ Session (examples dec bs) (Fails dec bs t) d.hist := by
  obtain ⟨hsi, bs, t, hs, ⟨_, hp⟩, _⟩ := dinv hP hm hr
  exact ⟨bs, t, hs, (session_of hsi hp).1⟩

/-- **C70**: what a peek returns is what the next call returns, be it a peek or a read. -/
theorem C70_peek (hP : 0 < P) (hm : Sources m) (d : DState m ε) (hr : DReachable P Q size dec d) (i : Nat) (c : ReadCall)
    (o o' : Res (Option ε)) (h1 : d.hist[i]? = some (.peek, o)) (h2 : d.hist[i + 1]? = some (c, o')) : o' = o := by
  obtain ⟨hsi, bs, t, _, ⟨_, hp⟩, _⟩ := dinv hP hm hr
  exact peek_of hsi hp i c o o' h1 h2

/-- **C70**: `num_bytes_read` is the size of the batches of all examples shown by the calls so far and of some batches
after these that are decoded ahead of time; once the end is reached it is the size of all batches
that give an example. -/
theorem C70_bytes (hP : 0 < P) (hm : Sources m) (d : DState m ε) (hr : DReachable P Q size dec d) :
    ∃ bs t, Source m d.p.start bs t ∧
      (∃ ahead : List (Batch α), ahead.Sublist ((fruitful dec bs).drop (shown d.hist)) ∧
        d.bytes = bytesOf size ((fruitful dec bs).take (shown d.hist)) + bytesOf size ahead) ∧
      (∀ c, (c, .ok none) ∈ d.hist → d.bytes = bytesOf size (fruitful dec bs)) := by
  obtain ⟨hsi, bs, t, he⟩ := dinv hP hm hr
  exact ⟨bs, t, he.1, bytes_of hsi he⟩

/-- **C70**: after a reset, whatever happens until it has returned, the reader is like a new one with a batch reader
that was reset: no peeked example, no bytes read, nothing returned. -/
theorem C70_reset (d d1 d2 : DState m ε) (hcall : dstep P Q size dec .reset d = some d1) (as : List PAct)
    (hrun : drun P Q size dec (as.map .sys) d1 = some d2) (hback : d2.p.consumer = .idle) :
    ∃ u, d2 = { p := { src := m.reset u, start := m.reset u } } := by
  have key : ∀ (as : List PAct) (d1 : DState m ε), drun P Q size dec (as.map .sys) d1 = some d2 →
      (d1.p.consumer = .joining ∨ ∃ u, d1 = { p := { src := m.reset u, start := m.reset u } }) →
      ∃ u, d2 = { p := { src := m.reset u, start := m.reset u } } := by
    intro as
    induction as with
    | nil =>
      intro d1 h hj
      simp [drun] at h
      subst h
      rcases hj with hj | hj
      · rw [hback] at hj; simp at hj
      · exact hj
    | cons a as ih =>
      intro d1 h hj
      simp only [List.map_cons, drun] at h
      cases hs : dstep P Q size dec (.sys a) d1 with
      | none => rw [hs] at h; simp at h
      | some d3 =>
        rw [hs] at h
        refine ih d3 h ?_
        simp only [dstep] at hs
        by_cases ha : a.isCall = true
        · rw [if_pos ha] at hs; simp at hs
        · rw [if_neg ha] at hs
          have ha : a.isCall = false := by simpa using ha
          simp only [Option.map_eq_some_iff] at hs
          obtain ⟨p, hp, hs⟩ := hs
          rcases hj with hj | ⟨u, hj⟩
          · by_cases hjj : a = .cJoin
            · rw [if_pos hjj] at hs
              subst hjj
              simp only [pstep, pCJoin] at hp
              split at hp
              · simp only [Option.some.injEq] at hp
                right
                exact ⟨d1.p.src, by rw [← hs, ← hp]; rfl⟩
              · simp at hp
            · rw [if_neg hjj] at hs
              left
              have hpj : p.consumer = .joining := by
                rcases consumer_step ha hp with ⟨h1, _⟩ | ⟨h1, _⟩ | ⟨h1, h2⟩
                · exact h1.trans hj
                · rw [hj] at h1; simp at h1
                · exact (join_only ha hjj hp hj (by rw [h2])).elim
              rw [settle_same ({ d1 with bytes := d1.bytes + bytesAdded size dec d1.p a } : DState m ε) p
                (fun hx => by rw [hpj] at hx; simp at hx)] at hs
              rw [← hs]
              exact hpj
          · subst hj
            rw [notStarted_stuck rfl rfl a ha] at hp
            simp at hp
  refine key as d1 hrun ?_
  simp only [dstep, Option.map_eq_some_iff] at hcall
  obtain ⟨p, hp, hcall⟩ := hcall
  by_cases hj : p.consumer = .joining
  · rw [if_pos hj] at hcall
    left
    rw [← hcall]
    exact hj
  · rw [if_neg hj] at hcall
    right
    unfold pCallReset at hp
    split at hp
    · split at hp <;> simp only [Option.some.injEq] at hp
      · exact ⟨d.p.src, by rw [← hcall, ← hp]; rfl⟩
      · rw [← hp] at hj; simp at hj
    · simp at hp

/-- **C70**: a call that has not returned is never stuck (that it returns after finitely many moves then is
`C27_finite`). -/
theorem C70_no_deadlock (hP : 0 < P) (hQ : 0 < Q) (hm : Sources m) (d : DState m ε) (hr : DReachable P Q size dec d)
    (hc : d.p.consumer ≠ .idle) : ∃ a d', dstep P Q size dec (.sys a) d = some d' := by
  obtain ⟨_, bs, t, hs, ⟨_, hi⟩, _⟩ := dinv hP hm hr
  obtain ⟨a, p, ha, hp⟩ := hi.progress hP hQ hs hc
  refine ⟨a, ?_⟩
  simp only [dstep, ha, hp, Option.map_some]
  exact ⟨_, rfl⟩

end

-- Two peeks, then three reads; both batches are counted at the first peek already.
example : ((drun (m := twoBatches) 2 2 id (fun b => .ok (some b.index))
    [.call .peek, .sys .produce, .sys .send, .sys .produce, .sys .send, .sys (.decode 1), .sys (.decode 0), .sys .forward,
      .sys .forward, .sys .qStart, .sys .qStep, .sys .qStart, .sys .qStep, .sys .produce, .sys .finish, .sys .cStep,
      .call .peek, .call .read, .call .read, .call .read, .sys .cStep] (DState.init twoBatches)).map
    fun d => (d.bytes, d.peeked, d.hist)) =
    some (21, none, [(.peek, .ok (some 0)), (.peek, .ok (some 0)), (.read, .ok (some 0)), (.read, .ok (some 1)),
      (.read, .ok none)]) := by decide

-- A peeked example does not survive a reset, and the bytes are counted again.
example : ((drun (m := twoBatches) 2 2 id (fun b => .ok (some b.index))
    [.call .peek, .sys .produce, .sys .send, .sys (.decode 0), .sys .forward, .sys .qStart, .sys .qStep, .sys .cStep,
      .call .read, .call .peek, .sys .produce, .sys .send, .sys (.decode 0), .sys .forward, .sys .qStart, .sys .qStep,
      .sys .cStep, .reset, .sys .finish, .sys .cJoin, .call .read, .sys .produce, .sys .send, .sys (.decode 0), .sys .forward,
      .sys .qStart, .sys .qStep, .sys .cStep] (DState.init twoBatches)).map
    fun d => (d.bytes, d.peeked, d.hist)) = some (10, none, [(.read, .ok (some 0))]) := by decide

end Mlio
