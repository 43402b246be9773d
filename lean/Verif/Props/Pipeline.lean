import Verif.Proofs.Pipeline
import Verif.Props.Instances

/-! # C25 - C29: the parallel reader -/

namespace Mlio
open Spec Machine

section
variable {α ε : Type} {m : Machine (Batch α)} {P Q : Nat} {dec : Batch α → Except Err (Option ε)}

/-- The states that some execution of a new reader leads to. -/
def Reachable (P Q : Nat) (dec : Batch α → Except Err (Option ε)) (s : PState m ε) : Prop :=
  ∃ as, prun P Q dec as (PState.init m) = some s

/-- Every epoch of the batch reader gives numbered batches and then the end or an error. -/
def Sources (m : Machine (Batch α)) : Prop :=
  (∃ bs t, Source m m.init bs t) ∧ ∀ u, ∃ bs t, Source m (m.reset u) bs t

theorem prun_append (as bs : List PAct) (s : PState m ε) :
    prun P Q dec (as ++ bs) s = (prun P Q dec as s).bind (prun P Q dec bs) := by
  induction as generalizing s with
  | nil => rfl
  | cons a as ih =>
    simp only [List.cons_append, prun]
    cases pstep P Q dec a s with
    | none => rfl
    | some s' => exact ih s'

theorem reachable_inv (hP : 0 < P) (hm : Sources m) {s : PState m ε} (hr : Reachable P Q dec s) :
    ∃ bs t pos, Source m s.start bs t ∧ PInv P Q dec bs t pos s := by
  obtain ⟨as, hr⟩ := hr
  have key : ∀ (as : List PAct) (s0 : PState m ε), (∃ bs t pos, Source m s0.start bs t ∧ PInv P Q dec bs t pos s0) →
      prun P Q dec as s0 = some s → ∃ bs t pos, Source m s.start bs t ∧ PInv P Q dec bs t pos s := by
    intro as
    induction as with
    | nil => intro s0 h0 h; simp [prun] at h; subst h; exact h0
    | cons a as ih =>
      intro s0 h0 h
      simp only [prun] at h
      cases hs : pstep P Q dec a s0 with
      | none => rw [hs] at h; simp at h
      | some s1 =>
        rw [hs] at h
        obtain ⟨bs, t, pos, h1, h2⟩ := h0
        exact ih s1 (h2.step hP hm.2 h1 hs) h
  refine key as _ ?_ hr
  obtain ⟨bs, t, h⟩ := hm.1
  exact ⟨bs, t, 0, h, PInv.init _ h⟩

/-! ## C25 -/

/-- **C25.** In every state that any schedule leads to, what the reader has returned since the epoch began is:
some of the examples of the dataset, from the first one on, in order and without gaps or repetitions, then
perhaps the end of data for ever, or an error for ever.  The end of data means that all
examples were returned and nothing failed; an error is one of reading or decoding. -/
theorem C25_order (hP : 0 < P) (hm : Sources m) (s : PState m ε) (hr : Reachable P Q dec s) :
    ∃ bs t, Source m s.start bs t ∧
      delivered s.out <+: examples dec bs ∧
      (∃ n o, s.out = (delivered s.out).map (fun e => .ok (some e)) ++ List.replicate n o ∧
        (o = .ok none ∨ ∃ e, o = .err e)) ∧
      (.ok none ∈ s.out → delivered s.out = examples dec bs ∧ (∀ b ∈ bs, ∃ r, dec b = .ok r) ∧ t = .ok none) ∧
      (∀ e, .err e ∈ s.out → Fails dec bs t e) := by
  obtain ⟨bs, t, pos, hs, h⟩ := reachable_inv hP hm hr
  refine ⟨bs, t, hs, ?_, ?_⟩
  · refine List.IsPrefix.trans ?_ h.pref
    rw [List.append_assoc]
    exact List.prefix_append _ _
  · obtain ⟨n, ho⟩ := h.out
    rcases ho with ho | ⟨_, ⟨_, h2, h3, h4, h5⟩ | ⟨_, e, h2, h3⟩⟩
    · refine ⟨⟨0, .ok none, by simpa using ho, Or.inl rfl⟩, ?_, ?_⟩
      · intro hx; rw [ho] at hx; simp at hx
      · intro e hx; rw [ho] at hx; simp at hx
    · refine ⟨⟨n, .ok none, h2, Or.inl rfl⟩, fun _ => ⟨h3, h4, h5⟩, ?_⟩
      intro e hx
      rw [h2] at hx
      simp [List.mem_replicate] at hx
    · refine ⟨⟨n, .err e, h3, Or.inr ⟨e, rfl⟩⟩, ?_, ?_⟩
      · intro hx
        rw [h3] at hx
        simp [List.mem_replicate] at hx
      · intro e' hx
        rw [h3] at hx
        simp [List.mem_replicate] at hx
        rw [hx.2]
        exact h.excFails e h2

theorem start_init (hm : m.Resets) {s : PState m ε} (hr : Reachable P Q dec s) : s.start = m.init := by
  obtain ⟨as, hr⟩ := hr
  have key : ∀ (as : List PAct) (s0 : PState m ε), s0.start = m.init → prun P Q dec as s0 = some s → s.start = m.init := by
    intro as
    induction as with
    | nil => intro s0 h0 h; simp [prun] at h; subst h; exact h0
    | cons a as ih =>
      intro s0 h0 h
      simp only [prun] at h
      cases hs : pstep P Q dec a s0 with
      | none => rw [hs] at h; simp at h
      | some s1 =>
        rw [hs] at h
        refine ih s1 ?_ h
        rcases start_eq hs with h1 | ⟨_, u, h1⟩
        · rw [h1, h0]
        · rw [h1, hm u]
  exact key as _ rfl hr

theorem reads_unique {β : Type} {m : Machine β} {s : m.σ} {xs ys : List β} {t u : Res (Option β)}
    (ht : ∀ x, t ≠ .ok (some x)) (hu : ∀ x, u ≠ .ok (some x)) (h1 : m.ReadsTo s xs t) (h2 : m.ReadsTo s ys u) :
    xs = ys ∧ t = u := by
  induction xs generalizing ys s with
  | nil =>
    cases ys with
    | nil => exact ⟨rfl, (show (m.read s).1 = t from h1).symm.trans h2⟩
    | cons y ys => exact absurd ((show (m.read s).1 = t from h1).symm.trans h2.1) (ht y)
  | cons x xs ih =>
    cases ys with
    | nil => exact absurd ((show (m.read s).1 = u from h2).symm.trans h1.1) (hu x)
    | cons y ys =>
      obtain ⟨s1, e1, y1⟩ := h1.read_cons
      obtain ⟨s2, e2, y2⟩ := h2.read_cons
      rw [e1] at e2
      simp only [Prod.mk.injEq, Res.ok.injEq, Option.some.injEq] at e2
      obtain ⟨rfl, rfl⟩ := e2
      obtain ⟨h3, h4⟩ := ih y1 y2
      exact ⟨by rw [h3], h4⟩

theorem Spec.Source.tail_ne {s : m.σ} {bs : List (Batch α)} {t : Res (Option (Batch α))} (h : Source m s bs t) :
    ∀ x, t ≠ .ok (some x) := by
  intro x
  rcases h.tail with h | ⟨e, h⟩ <;> rw [h] <;> simp

/-- **C25** for a reader whose epochs are all alike. -/
theorem C25_order_same_epochs (hP : 0 < P) (hm : m.Resets) (bs : List (Batch α)) (t : Res (Option (Batch α)))
    (hsrc : Source m m.init bs t) (s : PState m ε) (hr : Reachable P Q dec s) :
    delivered s.out <+: examples dec bs ∧
    (.ok none ∈ s.out → delivered s.out = examples dec bs ∧ (∀ b ∈ bs, ∃ r, dec b = .ok r) ∧ t = .ok none) ∧
    (∀ e, .err e ∈ s.out → Fails dec bs t e) := by
  obtain ⟨bs', t', h1, h2, _, h3, h4⟩ := C25_order (dec := dec) hP ⟨⟨bs, t, hsrc⟩, fun u => by rw [hm u]; exact ⟨bs, t, hsrc⟩⟩ s hr
  rw [start_init hm hr] at h1
  obtain ⟨rfl, rfl⟩ := reads_unique hsrc.tail_ne h1.tail_ne hsrc.reads h1.reads
  exact ⟨h2, h3, h4⟩

/-- **C25**, with the batch reader on top of any instance reader (all handlings of a short last batch but
`pad_warn`). -/
theorem C25_order_batches (hP : 0 < P) (inner : Machine α) (hi : inner.Resets) (xs : List α)
    (h : inner.Yields inner.init xs (.ok none)) (b : Nat) (hb : 0 < b) (l : LastHandling) (hl : l ≠ .padWarn)
    (s : PState (batched b l inner) ε) (hr : Reachable P Q dec s) :
    delivered s.out <+: examples dec (batches b l xs) ∧
    (.ok none ∈ s.out → delivered s.out = examples dec (batches b l xs)) := by
  have hsrc : Source (batched b l inner) (batched b l inner).init (batches b l xs) (.ok none) :=
    ⟨(C24_batches_partial inner xs h b hb l hl).readsTo,
      fun i q hq => ((C24_batches_meaning b hb l xs).2 i q hq).1, Or.inl rfl⟩
  have := C25_order_same_epochs hP (batched_resets hi b l) _ _ hsrc s hr
  exact ⟨this.1, fun hx => (this.2.1 hx).1⟩

/-! ## C26 -/

/-- **C26.** -/
theorem C26_bounded (hP : 0 < P) (hm : Sources m) (s : PState m ε) (hr : Reachable P Q dec s) :
    s.fill.length ≤ Q ∧ s.read.length ≤ Q ∧
    s.decoding.length + s.seq.length + s.qIn.length + s.busy.toList.length ≤ P := by
  obtain ⟨bs, t, pos, _, h⟩ := reachable_inv hP hm hr
  exact ⟨h.fillle, h.readle, Nat.le_trans h.flight h.countle⟩

/-- **C26**: the sizes the pipeline uses: both positive, the number of parallel reads never above the number
of prefetched examples, the given values unless zero or too large. -/
theorem C26_sizes (cores q p : Nat) (hc : 0 < cores) :
    let r := pipelineSizes cores q p
    0 < r.1 ∧ 0 < r.2 ∧ r.1 ≤ r.2 ∧ (0 < q → r.2 = q) ∧ (0 < p → p ≤ r.2 → r.1 = p) := by
  simp only [pipelineSizes]
  refine ⟨?_, ?_, ?_, ?_, ?_⟩ <;> (repeat' split) <;> omega

/-! ## C27 -/

/-- **C27**, no deadlock: while the user waits in `read_example` or `reset`, something can happen. -/
theorem C27_no_deadlock (hP : 0 < P) (hQ : 0 < Q) (hm : Sources m) (s : PState m ε) (hr : Reachable P Q dec s)
    (hc : s.consumer ≠ .idle) : ∃ a s', a.isCall = false ∧ pstep P Q dec a s = some s' := by
  obtain ⟨bs, t, pos, hs, h⟩ := reachable_inv hP hm hr
  exact h.progress hP hQ hs hc

theorem notStarted_stuck {s : PState m ε} (hn : s.status = .notStarted) (hi : s.consumer = .idle) (a : PAct)
    (ha : a.isCall = false) : pstep P Q dec a s = none := by
  cases a <;> simp [PAct.isCall] at ha <;>
    simp [pstep, pProduce, pSend, pDecode, pForward, pQStart, pQStep, pFinish, pCStep, pCJoin, hn, hi]

/-- **C27**, no endless run: from every reachable state there is a bound on the number of moves before the next
call of the user. -/
theorem C27_finite (hP : 0 < P) (hm : Sources m) (s : PState m ε) (hr : Reachable P Q dec s) :
    ∃ N, ∀ as s', (∀ a ∈ as, a.isCall = false) → prun P Q dec as s = some s' → as.length ≤ N := by
  obtain ⟨bs, t, pos, hs, h⟩ := reachable_inv hP hm hr
  have key : ∀ (as : List PAct) (s : PState m ε) (pos : Nat) (s' : PState m ε), Source m s.start bs t →
      PInv P Q dec bs t pos s → (∀ a ∈ as, a.isCall = false) → prun P Q dec as s = some s' →
      as.length ≤ s.work + 10 * (bs.length - pos) + 1 := by
    intro as
    induction as with
    | nil => intros; simp
    | cons a as ih =>
      intro s pos s' hs h hall hrun
      simp only [prun] at hrun
      cases h1 : pstep P Q dec a s with
      | none => rw [h1] at hrun; simp at hrun
      | some s1 =>
        rw [h1] at hrun
        have ha := hall a (List.mem_cons_self ..)
        have hall' := fun b hb => hall b (List.mem_cons_of_mem a hb)
        by_cases hj : a = .cJoin
        · subst hj
          simp only [pstep, pCJoin] at h1
          split at h1
          · simp only [Option.some.injEq] at h1
            subst h1
            cases as with
            | nil => simp
            | cons b bs' =>
              rw [Option.bind_some] at hrun
              simp only [prun] at hrun
              rw [notStarted_stuck rfl rfl b (hall' b (List.mem_cons_self ..))] at hrun
              simp at hrun
          · simp at h1
        · obtain ⟨pos', h2, h3⟩ := h.work_lt hs ha h1 hj hP
          have hst : s1.start = s.start := by
            rcases start_eq h1 with h4 | ⟨h4 | h4, _⟩
            · exact h4
            · subst h4; simp [PAct.isCall] at ha
            · exact absurd h4 hj
          have := ih s1 pos' s' (hst ▸ hs) h2 hall' hrun
          simp only [List.length_cons]
          omega
  exact ⟨_, fun as s' hall hrun => key as s pos s' hs h hall hrun⟩

/-- What a move that is not a call does to the consumer's side. -/
theorem consumer_step {s s' : PState m ε} {a : PAct} (ha : a.isCall = false) (hp : pstep P Q dec a s = some s') :
    (s'.consumer = s.consumer ∧ s'.out = s.out) ∨
    (s.consumer = .waiting ∧ s'.consumer = .idle ∧ ∃ o, s'.out = s.out ++ [o]) ∨
    (s.consumer = .joining ∧ s' = { src := m.reset s.src, start := m.reset s.src }) := by
  cases a with
  | produce =>
    simp only [pstep, pProduce] at hp
    split at hp
    · split at hp <;> simp at hp <;> subst hp <;> exact Or.inl ⟨rfl, rfl⟩
    · simp at hp
  | send =>
    simp only [pstep, pSend] at hp
    split at hp
    · split at hp <;> simp at hp; subst hp; exact Or.inl ⟨rfl, rfl⟩
    · simp at hp
  | decode i =>
    simp only [pstep, pDecode] at hp
    split at hp
    · split at hp
      · split at hp <;> simp at hp <;> subst hp <;> exact Or.inl ⟨rfl, rfl⟩
      · simp at hp
    · simp at hp
  | forward =>
    simp only [pstep, pForward] at hp
    split at hp
    · split at hp <;> simp at hp; subst hp; exact Or.inl ⟨rfl, rfl⟩
    · simp at hp
  | qStart =>
    simp only [pstep, pQStart] at hp
    split at hp
    · split at hp <;> simp at hp; subst hp; exact Or.inl ⟨rfl, rfl⟩
    · simp at hp
  | qStep =>
    simp only [pstep, pQStep] at hp
    split at hp
    · split at hp
      · simp at hp
      · simp at hp; subst hp; exact Or.inl ⟨rfl, rfl⟩
      · split at hp
        · split at hp <;> simp at hp <;> subst hp <;> exact Or.inl ⟨rfl, rfl⟩
        · simp at hp; subst hp; exact Or.inl ⟨rfl, rfl⟩
    · simp at hp
  | dropDecode i =>
    simp only [pstep] at hp
    split at hp <;> simp at hp
    subst hp; exact Or.inl ⟨rfl, rfl⟩
  | dropQueue =>
    simp only [pstep] at hp
    split at hp <;> simp at hp
    subst hp; exact Or.inl ⟨rfl, rfl⟩
  | finish =>
    simp only [pstep, pFinish] at hp
    split at hp <;> simp at hp
    subst hp; exact Or.inl ⟨rfl, rfl⟩
  | cStep =>
    simp only [pstep, pCStep] at hp
    split at hp
    · rename_i hc
      split at hp
      · split at hp
        · simp only [Option.some.injEq] at hp; subst hp
          exact Or.inr (Or.inl ⟨hc.1, rfl, _, rfl⟩)
        · simp only [Option.some.injEq] at hp; subst hp
          right; left
          unfold pPop
          split <;> exact ⟨hc.1, rfl, _, rfl⟩
      · simp only [Option.some.injEq] at hp; subst hp; exact Or.inl ⟨rfl, rfl⟩
    · simp at hp
  | cJoin =>
    simp only [pstep, pCJoin] at hp
    split at hp
    · rename_i hc
      simp only [Option.some.injEq] at hp; subst hp
      exact Or.inr (Or.inr ⟨hc.1, rfl⟩)
    · simp at hp
  | callRead => simp [PAct.isCall] at ha
  | callReset => simp [PAct.isCall] at ha

/-- A read that was waiting and has returned has had one outcome. -/
theorem prun_out {s s' : PState m ε} (hidle : s'.consumer = .idle) (as : List PAct) (hall : ∀ a ∈ as, a.isCall = false)
    (hrun : prun P Q dec as s = some s') :
    (s.consumer = .waiting → ∃ o, s'.out = s.out ++ [o]) ∧ (s.consumer = .idle → s'.out = s.out) := by
  induction as generalizing s with
  | nil =>
    simp [prun] at hrun
    subst hrun
    exact ⟨fun h => (by rw [hidle] at h; simp at h), fun _ => rfl⟩
  | cons a as ih =>
    simp only [prun] at hrun
    cases hs : pstep P Q dec a s with
    | none => rw [hs] at hrun; simp at hrun
    | some s2 =>
      rw [hs] at hrun
      have ih := ih (fun b hb => hall b (List.mem_cons_of_mem a hb)) hrun
      rcases consumer_step (hall a (List.mem_cons_self ..)) hs with ⟨h1, h2⟩ | ⟨h1, h2, o, h3⟩ | ⟨h1, _⟩
      · rw [h1, h2] at ih; exact ih
      · exact ⟨fun _ => ⟨o, by rw [ih.2 h2, h3]⟩, fun h => (by rw [h1] at h; simp at h)⟩
      · exact ⟨fun h => (by rw [h1] at h; simp at h), fun h => (by rw [h1] at h; simp at h)⟩

/-- **C27**, the answer: whatever happens while the user waits in `read_example`, when nothing more can
happen the call has returned, with exactly one outcome. -/
theorem C27_read_returns (hP : 0 < P) (hQ : 0 < Q) (hm : Sources m) (s s' : PState m ε) (hr : Reachable P Q dec s)
    (hc : s.consumer = .waiting) (as : List PAct) (hall : ∀ a ∈ as, a.isCall = false)
    (hrun : prun P Q dec as s = some s') (hend : ∀ a, a.isCall = false → pstep P Q dec a s' = none) :
    s'.consumer = .idle ∧ ∃ o, s'.out = s.out ++ [o] := by
  have hr' : Reachable P Q dec s' := by
    obtain ⟨bs, hb⟩ := hr
    exact ⟨bs ++ as, by rw [prun_append, hb]; exact hrun⟩
  have hidle : s'.consumer = .idle := by
    apply Classical.byContradiction
    intro hne
    obtain ⟨a, s'', h1, h2⟩ := C27_no_deadlock hP hQ hm s' hr' hne
    rw [hend a h1] at h2
    simp at h2
  exact ⟨hidle, (prun_out hidle as hall hrun).1 hc⟩

/-! ## C28 -/

/-- **C28**, the part that holds: an error is reported only if reading or decoding fails, the examples
before it are the first ones of the dataset, in order, all from before the first failing batch, and a
dataset with a failure never seems to end normally. -/
theorem C28_failing_batch_partial (hP : 0 < P) (hm : Sources m) (s : PState m ε) (hr : Reachable P Q dec s) :
    ∃ bs t, Source m s.start bs t ∧ delivered s.out <+: examples dec bs ∧
      (∀ e, .err e ∈ s.out → Fails dec bs t e) ∧
      ((∃ e, Fails dec bs t e) → .ok none ∉ s.out) := by
  obtain ⟨bs, t, h1, h2, _, h3, h4⟩ := C25_order hP hm s hr
  refine ⟨bs, t, h1, h2, h4, ?_⟩
  rintro ⟨e, he⟩ hx
  obtain ⟨_, h5, h6⟩ := h3 hx
  rcases he with he | ⟨b, hb, he⟩
  · rw [h6] at he; simp at he
  · obtain ⟨r, hr⟩ := h5 b hb
    rw [he] at hr
    simp at hr

end

/-- Two batches, of which the second one cannot be decoded. -/
def twoBatches : Machine (Batch Nat) := listMachine [⟨0, [10], 1⟩, ⟨1, [11], 1⟩]

def failSecond (b : Batch Nat) : Except Err (Option Nat) :=
  if b.index = 1 then .error .dataReader else .ok b.instances.head?

theorem twoBatches_source : Source twoBatches twoBatches.init [⟨0, [10], 1⟩, ⟨1, [11], 1⟩] (.ok none) :=
  ⟨(listMachine_yields _ _).readsTo, by
    intro i b h
    match i, h with
    | 0, h => simp at h; subst h; rfl
    | 1, h => simp at h; subst h; rfl
    | n + 2, h => simp at h, Or.inl rfl⟩

/-- **C28** is false of the code: the first example is already in the queue when the second batch fails, and the
consumer, who has not been scheduled yet, gets the error and never that example. -/
theorem C28_earlier_example_lost_violated :
    ∃ s : PState twoBatches Nat, Reachable 2 2 failSecond s ∧ s.consumer = .idle ∧ s.status = .faulted ∧
      s.read = [] ∧ s.out = [.err .dataReader] ∧ examples failSecond [⟨0, [10], 1⟩, ⟨1, [11], 1⟩] = [10] :=
  ⟨_, ⟨[.callRead, .produce, .send, .decode 0, .forward, .qStart, .qStep, .produce, .send, .decode 0, .finish, .cStep],
    rfl⟩, rfl, rfl, rfl, rfl, rfl⟩

-- Another schedule delivers the example and then the error, again and again.
example : ((prun (m := twoBatches) 2 2 failSecond
    [.callRead, .produce, .send, .decode 0, .forward, .qStart, .qStep, .cStep, .produce, .send, .decode 0, .callRead,
      .finish, .cStep, .callRead, .cStep] (PState.init twoBatches)).map (·.out)) =
    some [.ok (some 10), .err .dataReader, .err .dataReader] := by decide

-- Batches decoded out of order arrive in order.
example : ((prun (m := twoBatches) 2 2 (fun b => .ok (some b.index))
    [.callRead, .produce, .send, .produce, .send, .decode 1, .decode 0, .forward, .forward, .qStart, .qStep, .qStart, .qStep,
      .produce, .finish, .cStep, .callRead, .callRead, .cStep] (PState.init twoBatches)).map (·.out)) =
    some [.ok (some 0), .ok (some 1), .ok none] := by decide

-- The hypotheses on the batch reader hold for it.
example : Sources twoBatches := ⟨⟨_, _, twoBatches_source⟩, fun _ => ⟨_, _, twoBatches_source⟩⟩

/-! ## C29 -/

section
variable {α ε : Type} {m : Machine (Batch α)} {P Q : Nat} {dec : Batch α → Except Err (Option ε)}

/-- **C29.** `reset` can be called in every state in which the user is not inside a call.  Whatever happens until it
has returned, the reader then is in the state of a new one, except that the batch reader is in the
state after its own reset: nothing is queued or running, and nothing was returned.  By `C25_order` (which
is about all reachable states) what is returned from then on belongs to the new epoch. -/
theorem C29_reset (s s1 s2 : PState m ε) (hcall : pstep P Q dec .callReset s = some s1) (as : List PAct)
    (hall : ∀ a ∈ as, a.isCall = false) (hrun : prun P Q dec as s1 = some s2) (hback : s2.consumer = .idle) :
    ∃ u, s2 = { src := m.reset u, start := m.reset u } := by
  have key : ∀ (as : List PAct) (s1 : PState m ε), (∀ a ∈ as, a.isCall = false) → prun P Q dec as s1 = some s2 →
      (s1.consumer = .joining ∨ ∃ u, s1 = { src := m.reset u, start := m.reset u }) →
      ∃ u, s2 = { src := m.reset u, start := m.reset u } := by
    intro as
    induction as with
    | nil =>
      intro s1 _ h hj
      simp [prun] at h
      subst h
      rcases hj with hj | hj
      · rw [hback] at hj; simp at hj
      · exact hj
    | cons a as ih =>
      intro s1 hall h hj
      simp only [prun] at h
      cases hs : pstep P Q dec a s1 with
      | none => rw [hs] at h; simp at h
      | some s3 =>
        rw [hs] at h
        have ha := hall a (List.mem_cons_self ..)
        refine ih s3 (fun b hb => hall b (List.mem_cons_of_mem a hb)) h ?_
        rcases hj with hj | ⟨u, hj⟩
        · rcases consumer_step ha hs with ⟨h1, _⟩ | ⟨h1, _⟩ | ⟨_, h2⟩
          · exact Or.inl (h1.trans hj)
          · rw [hj] at h1; simp at h1
          · exact Or.inr ⟨_, h2⟩
        · subst hj
          rw [notStarted_stuck rfl rfl a ha] at hs
          simp at hs
  refine key as s1 hall hrun ?_
  simp only [pstep, pCallReset] at hcall
  split at hcall
  · split at hcall <;> simp only [Option.some.injEq] at hcall <;> subst hcall
    · exact Or.inr ⟨_, rfl⟩
    · exact Or.inl rfl
  · simp at hcall

/-- **C29**: `reset` returns: nothing it waits for can stay stuck. -/
theorem C29_reset_returns (hP : 0 < P) (hQ : 0 < Q) (hm : Sources m) (s s1 s2 : PState m ε) (hr : Reachable P Q dec s)
    (hcall : pstep P Q dec .callReset s = some s1) (as : List PAct)
    (hall : ∀ a ∈ as, a.isCall = false) (hrun : prun P Q dec as s1 = some s2)
    (hend : ∀ a, a.isCall = false → pstep P Q dec a s2 = none) :
    ∃ u, s2 = { src := m.reset u, start := m.reset u } := by
  refine C29_reset s s1 s2 hcall as hall hrun ?_
  apply Classical.byContradiction
  intro hne
  have hr' : Reachable P Q dec s2 := by
    obtain ⟨bs, hb⟩ := hr
    refine ⟨bs ++ (.callReset :: as), ?_⟩
    rw [prun_append, hb]
    simp only [Option.bind_some, prun, hcall]
    exact hrun
  obtain ⟨a, s'', h1, h2⟩ := C27_no_deadlock hP hQ hm s2 hr' hne
  rw [hend a h1] at h2
  simp at h2

/-- **C29**: and for a reader whose epochs are all alike the state is exactly that of a new reader. -/
theorem C29_reset_is_new (hm : m.Resets) (s s1 s2 : PState m ε) (hcall : pstep P Q dec .callReset s = some s1)
    (as : List PAct) (hall : ∀ a ∈ as, a.isCall = false) (hrun : prun P Q dec as s1 = some s2)
    (hback : s2.consumer = .idle) : s2 = PState.init m := by
  obtain ⟨u, h⟩ := C29_reset s s1 s2 hcall as hall hrun hback
  rw [h, hm u]
  rfl

end

-- Reset while an example is queued and another one is being decoded; the new epoch is complete.
example : ((prun (m := twoBatches) 2 2 (fun b => .ok (some b.index))
    [.callRead, .produce, .send, .decode 0, .forward, .qStart, .qStep, .cStep, .produce, .send, .callReset, .decode 0,
      .finish, .cJoin, .callRead, .produce, .send, .produce, .send, .decode 1, .decode 0, .forward, .forward, .qStart,
      .qStep, .qStart, .qStep, .produce, .finish, .cStep, .callRead, .callRead, .cStep] (PState.init twoBatches)).map
    (·.out)) = some [.ok (some 0), .ok (some 1), .ok none] := by decide

end Mlio
