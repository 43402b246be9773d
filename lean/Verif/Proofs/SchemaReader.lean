import Verif.Spec.SchemaReader
import Verif.Proofs.DataReader
import Verif.Props.Pipeline

/-! # Invariants of schema inference -/

namespace Mlio
open Spec Machine

section
variable {α ε S ι : Type} {r : Machine α}

theorem IsTail.ne {β : Type} {t : Res (Option β)} (h : IsTail t) (x : β) : t ≠ .ok (some x) := by
  rcases h with rfl | ⟨e, rfl⟩ <;> simp

theorem peek_yields {i i' : r.base.σ} {ys : List α} {t : Res (Option α)} {o : Res (Option α)} (ht : IsTail t)
    (h : r.base.Yields i ys t) (hp : basePeek r i = (o, i')) :
    r.base.Yields i' ys t ∧ (∀ inst, o = .ok inst → inst = ys.head? ∧ (inst = none → t = .ok none)) ∧
    (∀ e, o = .err e → ys = [] ∧ t = .err e) ∧ ∀ w, o ≠ .ub w := by
  obtain ⟨c, p⟩ := i
  cases p with
  | some x =>
    simp only [basePeek, Prod.mk.injEq] at hp
    obtain ⟨rfl, rfl⟩ := hp
    refine ⟨h, ?_, by simp, by simp⟩
    intro inst hi
    simp only [Res.ok.injEq] at hi
    subst hi
    cases ys with
    | nil =>
      obtain ⟨s', e, _⟩ := h.read_nil
      have e1 : Res.ok (some x) = t := congrArg Prod.fst e
      exact absurd e1.symm (IsTail.ne ht x)
    | cons y ys =>
      obtain ⟨s', e, _⟩ := h.read_cons
      have e1 : Res.ok (some x) = Res.ok (some y) := congrArg Prod.fst e
      simp only [Res.ok.injEq] at e1
      exact ⟨e1, fun hx => by simp at hx⟩
  | none =>
    cases ys with
    | nil =>
      obtain ⟨s', e, h'⟩ := h.read_nil
      have e1 : (r.read c).1 = t := congrArg Prod.fst e
      have e2 : ((r.read c).2, none) = s' := congrArg Prod.snd e
      have hread : r.read c = (t, s'.1) ∧ s' = (s'.1, none) := by
        subst e2
        exact ⟨Prod.ext e1 rfl, rfl⟩
      rw [hread.2] at h'
      simp only [basePeek, hread.1] at hp
      rcases ht with rfl | ⟨e, rfl⟩
      · simp only [Prod.mk.injEq] at hp
        obtain ⟨rfl, rfl⟩ := hp
        refine ⟨h', fun inst hi => ?_, by simp, by simp⟩
        simp only [Res.ok.injEq] at hi
        exact ⟨by rw [← hi]; rfl, fun _ => rfl⟩
      · simp only [Prod.mk.injEq] at hp
        obtain ⟨rfl, rfl⟩ := hp
        exact ⟨h', fun inst hi => by simp at hi, fun e he => by simpa using he, by simp⟩
    | cons y ys =>
      obtain ⟨s', e, h'⟩ := h.read_cons
      have e1 : (r.read c).1 = .ok (some y) := congrArg Prod.fst e
      have e2 : ((r.read c).2, none) = s' := congrArg Prod.snd e
      have hread : r.read c = (.ok (some y), s'.1) ∧ s' = (s'.1, none) := by
        subst e2
        exact ⟨Prod.ext e1 rfl, rfl⟩
      rw [hread.2] at h'
      simp only [basePeek, hread.1, Prod.mk.injEq] at hp
      obtain ⟨rfl, rfl⟩ := hp
      refine ⟨yields_cons.2 ⟨rfl, h'⟩, fun inst hi => ?_, by simp, by simp⟩
      simp only [Res.ok.injEq] at hi
      subst hi
      exact ⟨rfl, fun hx => by simp at hx⟩

theorem batchLoop_congr {inner : Machine α} {t : Res (Option α)} (ht : IsTail t) (n : Nat) {i1 i2 : inner.σ} {ys acc : List α}
    (h1 : inner.Yields i1 ys t) (h2 : inner.Yields i2 ys t) :
    ∃ o j1 j2 zs, batchLoop inner n i1 acc = (o, j1) ∧ batchLoop inner n i2 acc = (o, j2) ∧ inner.Yields j1 zs t ∧
      inner.Yields j2 zs t ∧ (ys = [] → zs = []) := by
  induction n generalizing i1 i2 ys acc with
  | zero => exact ⟨_, i1, i2, ys, rfl, rfl, h1, h2, id⟩
  | succ n ih =>
    cases ys with
    | nil =>
      obtain ⟨s1, e1, y1⟩ := h1.read_nil
      obtain ⟨s2, e2, y2⟩ := h2.read_nil
      rcases ht with rfl | ⟨e, rfl⟩
      · exact ⟨.ok acc, s1, s2, [], by simp [batchLoop, e1], by simp [batchLoop, e2], y1, y2, id⟩
      · exact ⟨.err e, s1, s2, [], by simp [batchLoop, e1], by simp [batchLoop, e2], y1, y2, id⟩
    | cons y ys =>
      obtain ⟨s1, e1, y1⟩ := h1.read_cons
      obtain ⟨s2, e2, y2⟩ := h2.read_cons
      obtain ⟨o, j1, j2, zs, h3, h4, h5, h6, _⟩ := ih (acc := acc ++ [y]) y1 y2
      exact ⟨o, j1, j2, zs, by simp [batchLoop, e1, h3], by simp [batchLoop, e2, h4], h5, h6, by simp⟩

variable {b : Nat} {l : LastHandling}

theorem batchRead_congr {inner : Machine α} {t : Res (Option α)} (ht : IsTail t) {i1 i2 : inner.σ} {k : Nat} {ys : List α}
    (h1 : inner.Yields i1 ys t) (h2 : inner.Yields i2 ys t) :
    ∃ o j1 j2 k' zs, batchRead b l inner (i1, k) = (o, (j1, k')) ∧ batchRead b l inner (i2, k) = (o, (j2, k')) ∧
      inner.Yields j1 zs t ∧ inner.Yields j2 zs t ∧ (ys = [] → zs = []) := by
  obtain ⟨o, j1, j2, zs, h3, h4, h5, h6, h7⟩ := batchLoop_congr (acc := []) ht b h1 h2
  simp only [batchRead, h3, h4]
  match o with
  | .ok xs =>
    simp only
    by_cases he : xs.isEmpty = true
    · rw [if_pos he, if_pos he]; exact ⟨_, j1, j2, _, zs, rfl, rfl, h5, h6, h7⟩
    · rw [if_neg he, if_neg he]
      by_cases hl : xs.length ≠ b ∧ (l = .drop ∨ l = .dropWarn)
      · rw [if_pos hl, if_pos hl]; exact ⟨_, j1, j2, _, zs, rfl, rfl, h5, h6, h7⟩
      · rw [if_neg hl, if_neg hl]; exact ⟨_, j1, j2, _, zs, rfl, rfl, h5, h6, h7⟩
  | .err e => exact ⟨_, j1, j2, _, zs, rfl, rfl, h5, h6, h7⟩
  | .ub w => exact ⟨_, j1, j2, _, zs, rfl, rfl, h5, h6, h7⟩

theorem batched_outs_congr {inner : Machine α} {t : Res (Option α)} (ht : IsTail t) (n : Nat) {i1 i2 : inner.σ} {k : Nat}
    {ys : List α} (h1 : inner.Yields i1 ys t) (h2 : inner.Yields i2 ys t) :
    (batched b l inner).outs n (i1, k) = (batched b l inner).outs n (i2, k) := by
  induction n generalizing i1 i2 k ys with
  | zero => rfl
  | succ n ih =>
    obtain ⟨o, j1, j2, k', zs, h3, h4, h5, h6, _⟩ := batchRead_congr (b := b) (l := l) (k := k) ht h1 h2
    simp only [outs, batched, h3, h4]
    exact congrArg _ (ih h5 h6)

theorem batched_congr {inner : Machine α} {t : Res (Option α)} (ht : IsTail t) {i1 i2 : inner.σ} {k : Nat}
    {ys : List α} (h1 : inner.Yields i1 ys t) (h2 : inner.Yields i2 ys t) {bs : List (Batch α)} {T : Res (Option (Batch α))}
    (h : (batched b l inner).ReadsTo (i1, k) bs T) : (batched b l inner).ReadsTo (i2, k) bs T := by
  exact h.of_outs fun n => batched_outs_congr ht n h1 h2

theorem batched_empty {inner : Machine α} {i : inner.σ} {k : Nat} (h1 : inner.Yields i [] (.ok none)) {bs : List (Batch α)}
    {T : Res (Option (Batch α))} (h : (batched b l inner).ReadsTo (i, k) bs T) : bs = [] := by
  cases bs with
  | nil => rfl
  | cons x bs =>
    obtain ⟨s', e, _⟩ := h.read_cons
    exfalso
    have : ∃ j, batchLoop inner b i [] = (.ok [], j) := by
      cases b with
      | zero => exact ⟨i, rfl⟩
      | succ n =>
        obtain ⟨s1, e1, _⟩ := h1.read_nil
        exact ⟨s1, by simp [batchLoop, e1]⟩
    obtain ⟨j, hj⟩ := this
    have e1 : (batchRead b l inner (i, k)).1 = Res.ok (some x) := congrArg Prod.fst e
    simp [batchRead, hj] at e1

end

/-! ## The pipeline -/

section
variable {α ε : Type} {m : Machine (Batch α)} {P Q : Nat} {size : α → Nat} {dec : Batch α → Except Err (Option ε)}
  {bs : List (Batch α)} {t : Res (Option (Batch α))} {pos : Nat} {s s' : PState m ε}

/-- A reader that is running and not waited for has returned something. -/
def Told (s : PState m ε) : Prop := s.status = .running → s.consumer = .idle → s.out ≠ []

theorem pstep_src {a : PAct} (hp : pstep P Q dec a s = some s') (hj : a ≠ .cJoin)
    (hr : a = .callReset → s'.consumer = .joining) :
    (s'.src = s.src ∨ (s.status = .running ∧ s'.src = (m.read s.src).2)) ∧ (s.status ≠ .notStarted → s'.status ≠ .notStarted) ∧
    (s.status = .notStarted → s'.status ≠ .notStarted → a = .callRead) ∧ (Told s → Told s') := by
  cases a with
  | produce =>
    simp only [pstep, pProduce] at hp
    split at hp
    · rename_i hrun
      split at hp <;> simp at hp <;> subst hp <;> rename_i hx <;> simp [hx, hrun.1, PState.throw, Told]
    · simp at hp
  | send =>
    simp only [pstep, pSend] at hp
    split at hp
    · split at hp <;> simp at hp; subst hp; exact ⟨Or.inl rfl, id, fun h h' => absurd h h', id⟩
    · simp at hp
  | decode i =>
    simp only [pstep, pDecode] at hp
    split at hp
    · split at hp
      · split at hp <;> simp at hp <;> subst hp <;> exact ⟨Or.inl rfl, id, fun h h' => absurd h h', id⟩
      · simp at hp
    · simp at hp
  | forward =>
    simp only [pstep, pForward] at hp
    split at hp
    · split at hp <;> simp at hp; subst hp; exact ⟨Or.inl rfl, id, fun h h' => absurd h h', id⟩
    · simp at hp
  | qStart =>
    simp only [pstep, pQStart] at hp
    split at hp
    · split at hp <;> simp at hp; subst hp; exact ⟨Or.inl rfl, id, fun h h' => absurd h h', id⟩
    · simp at hp
  | qStep =>
    simp only [pstep, pQStep] at hp
    split at hp
    · split at hp
      · simp at hp
      · simp at hp; subst hp; exact ⟨Or.inl rfl, id, fun h h' => absurd h h', id⟩
      · split at hp
        · split at hp <;> simp at hp <;> subst hp <;> exact ⟨Or.inl rfl, id, fun h h' => absurd h h', id⟩
        · simp at hp; subst hp; exact ⟨Or.inl rfl, id, fun h h' => absurd h h', id⟩
    · simp at hp
  | dropDecode i =>
    simp only [pstep] at hp
    split at hp <;> simp at hp
    subst hp; exact ⟨Or.inl rfl, id, fun h h' => absurd h h', id⟩
  | dropQueue =>
    simp only [pstep] at hp
    split at hp <;> simp at hp
    subst hp; exact ⟨Or.inl rfl, id, fun h h' => absurd h h', id⟩
  | finish =>
    simp only [pstep, pFinish] at hp
    split at hp <;> simp at hp
    subst hp
    rename_i hx
    refine ⟨Or.inl rfl, fun _ => ?_, fun h => by rw [hx.1] at h; simp at h, fun _ => ?_⟩
    · simp only; split <;> simp
    · intro hx
      simp only at hx
      split at hx <;> simp at hx
  | cStep =>
    simp only [pstep, pCStep] at hp
    split at hp
    · split at hp
      · split at hp
        · simp at hp; subst hp; exact ⟨Or.inl rfl, id, fun h h' => absurd h h', fun _ _ _ => by simp⟩
        · simp at hp; subst hp
          unfold pPop
          split <;> exact ⟨Or.inl rfl, id, fun h h' => absurd h h', fun _ _ _ => by simp⟩
      · simp at hp; subst hp; exact ⟨Or.inl rfl, id, fun h h' => absurd h h', id⟩
    · simp at hp
  | cJoin => exact absurd rfl hj
  | callRead =>
    simp only [pstep, pCallRead] at hp
    split at hp
    · split at hp
      · split at hp <;> simp at hp <;> subst hp
        · exact ⟨Or.inl rfl, by simp, fun _ _ => rfl, fun _ _ h => by simp at h⟩
        · exact ⟨Or.inl rfl, id, fun h h' => absurd h h', fun _ _ h => by simp at h⟩
      · simp at hp; subst hp
        unfold pPop
        split <;> exact ⟨Or.inl rfl, id, fun h h' => absurd h h', fun _ _ _ => by simp⟩
    · simp at hp
  | callReset =>
    have := hr rfl
    simp only [pstep, pCallReset] at hp
    split at hp
    · split at hp <;> simp at hp <;> subst hp
      · simp [PState.afterStop] at this
      · exact ⟨Or.inl rfl, id, fun h h' => absurd h h', fun _ _ h => by simp at h⟩
    · simp at hp

theorem PInv.setSrc (h : PInv P Q dec bs t pos s) (u : m.σ)
    (hu : ∀ cs T, m.ReadsTo s.src cs T → m.ReadsTo u cs T) : PInv P Q dec bs t pos { s with src := u } := by
  refine { h with src := ?_, .. }
  exact fun ha => hu _ _ (h.src ha)

theorem BInv.setSrc {D : List (Batch α)} {bytes : Nat} (h : BInv size dec bs t pos D s bytes) (u : m.σ)
    (hu : ∀ cs T, m.ReadsTo s.src cs T → m.ReadsTo u cs T) : BInv size dec bs t pos D { s with src := u } bytes := by
  refine { h with src := ?_, .. }
  exact fun ha => hu _ _ (h.src ha)

end

/-! ## The reader -/

section
variable {α ε S ι : Type} {b : Nat} {l : LastHandling} {r : Machine α} {P Q : Nat} {size : α → Nat}
  {dec : Batch α → Except Err (Option ε)} {infer : Infer α S ι} {bs : List (Batch α)} {t : Res (Option (Batch α))}
  {ys : List α} {t' : Res (Option α)}

/-- In this epoch there is nothing to decode. -/
def Hollow (r : Machine α) (bs : List (Batch α)) (ys : List α) (t' : Res (Option α)) : Prop :=
  bs = [] ∧ ys = [] ∧ t' = .ok none ∧ EpochOf r [] (.ok none)

structure WInv (P Q : Nat) (size : α → Nat) (dec : Batch α → Except Err (Option ε)) (infer : Infer α S ι) (bs : List (Batch α))
    (t : Res (Option (Batch α))) (ys : List α) (t' : Res (Option α)) (w : WState b l r ε S ι) : Prop where
  si : SInv w.d
  ei : EInv P Q size dec bs t w.d
  reply : Told w.d.p
  tail : IsTail t'
  inner : r.base.Yields w.d.p.src.1 ys t'
  first : w.d.p.status = .notStarted → EpochOf r ys t'
  empty : w.schema = none → w.d.p.status ≠ .notStarted → Hollow r bs ys t'
  race : w.race = false
  schema : ∀ s, w.schema = some s → ∃ xs T mem, EpochOf r xs T ∧ (xs = [] → T = .ok none) ∧
    infer mem xs.head? = (.ok (some s), w.mem)
  told : ∀ o ∈ w.told, Explains r infer o
  same : ∀ s, .ok (some s) ∈ w.told → w.schema = some s

theorem WInv.epoch {w : WState b l r ε S ι} (h : WInv P Q size dec infer bs t ys t' w) (hs : w.schema = none) :
    EpochOf r ys t' := by
  by_cases hn : w.d.p.status = .notStarted
  · exact h.first hn
  · obtain ⟨_, rfl, rfl, he⟩ := h.empty hs hn
    exact he

/-- The user's thread looks at the batch reader only when no other thread does. -/
theorem WInv.calm {w : WState b l r ε S ι} (h : WInv P Q size dec infer bs t ys t' w) (hs : w.schema = none)
    (hi : w.d.p.consumer = .idle) : w.d.p.status ≠ .running := by
  intro hr
  obtain ⟨rfl, _⟩ := h.empty hs (by rw [hr]; simp)
  obtain ⟨_, ⟨pos, hp⟩, _⟩ := h.ei
  have h1 := hp.pref
  simp only [examples, List.prefix_nil, List.append_eq_nil_iff] at h1
  obtain ⟨n, h2 | ⟨_, ⟨h2, _⟩ | ⟨h2, _⟩⟩⟩ := hp.out
  · rw [h1.1.1] at h2
    exact h.reply hr hi (by simpa using h2)
  · rw [hr] at h2; simp at h2
  · rw [hr] at h2; simp at h2

theorem WInv.setSrc {w : WState b l r ε S ι} (h : WInv P Q size dec infer bs t ys t' w) (i : r.base.σ)
    (hi : r.base.Yields i ys t') :
    WInv P Q size dec infer bs t ys t'
      { w with d := { w.d with p := { w.d.p with src := (i, w.d.p.src.2) } } } := by
  have hu : ∀ cs T, (batched b l r.base).ReadsTo w.d.p.src cs T → (batched b l r.base).ReadsTo (i, w.d.p.src.2) cs T :=
    fun cs T hy => batched_congr h.tail h.inner hi hy
  obtain ⟨h1, ⟨pos, h2⟩, pos', D, h3⟩ := h.ei
  exact {
    si := h.si.same rfl rfl rfl h.si.call h.si.wait
    ei := ⟨h1, ⟨pos, h2.setSrc _ hu⟩, pos', D, h3.setSrc _ hu⟩
    reply := h.reply
    tail := h.tail
    inner := hi
    first := h.first
    empty := h.empty
    race := h.race
    schema := h.schema
    told := h.told
    same := h.same }

/-- If there is no instance there is no batch. -/
theorem WInv.hollow {w : WState b l r ε S ι} (h : WInv P Q size dec infer bs t [] (.ok none) w) (hs : w.schema = none) :
    Hollow r bs [] (.ok none) := by
  by_cases hn : w.d.p.status = .notStarted
  · refine ⟨?_, rfl, rfl, h.first hn⟩
    obtain ⟨_, ⟨pos, hp⟩, _⟩ := h.ei
    have h1 := hp.src (Or.inr hn)
    obtain ⟨_, _, _, _, _, _, _, _, _, _, _, rfl, _⟩ := hp.fresh hn
    exact batched_empty (i := w.d.p.src.1) (k := w.d.p.src.2) h.inner h1
  · exact h.empty hs hn

theorem WInv.ensure (hnn : ∀ mem x, (infer mem (some x)).1 ≠ .ok none) {w w' : WState b l r ε S ι}
    (h : WInv P Q size dec infer bs t ys t' w) (hi : w.d.p.consumer = .idle) {o : Res (Option S)}
    (he : ensureSchema infer w = (o, w')) :
    WInv P Q size dec infer bs t ys t' { w' with told := w'.told ++ [o] } ∧ (∀ s, o = .ok s → w'.schema = s) ∧
      (w'.schema = none → o = .ok none → Hollow r bs ys t') ∧ w'.told = w.told ∧ w'.d.p.consumer = w.d.p.consumer ∧
      w'.d.peeked = w.d.peeked ∧ (∀ s, w.schema = some s → w'.schema = some s) := by
  unfold ensureSchema at he
  cases hs : w.schema with
  | some s =>
    rw [hs] at he
    simp only [Prod.mk.injEq] at he
    obtain ⟨rfl, rfl⟩ := he
    refine ⟨{ h with told := ?_, same := ?_, .. }, by simp [hs], by simp [hs], rfl, rfl, rfl, fun _ h => hs.trans h⟩
    · intro o ho
      simp only [List.mem_append, List.mem_singleton] at ho
      rcases ho with ho | rfl
      · exact h.told o ho
      · obtain ⟨xs, T, mem, h1, h2, h3⟩ := h.schema s hs
        exact ⟨xs, T, h1, Or.inr ⟨h2, mem, by rw [h3]⟩⟩
    · intro s' ho
      simp only [List.mem_append, List.mem_singleton, Res.ok.injEq] at ho
      rcases ho with ho | ho
      · exact h.same s' ho
      · exact hs.trans ho.symm
  | none =>
    have hep := h.epoch hs
    have hrace : (w.race || decide (w.d.p.status = RunState.running)) = w.race := by
      simp [h.calm hs hi]
    rw [hs] at he
    simp only [hrace] at he
    generalize hp : basePeek r w.d.p.src.1 = pk at he
    obtain ⟨po, i⟩ := pk
    obtain ⟨hy, hok, herr, hub⟩ := peek_yields h.tail h.inner hp
    have hw := h.setSrc i hy
    match po with
    | .ub u => exact absurd rfl (hub u)
    | .err e =>
      simp only [Prod.mk.injEq] at he
      obtain ⟨rfl, rfl⟩ := he
      obtain ⟨rfl, rfl⟩ := herr e rfl
      refine ⟨{ hw with empty := fun _ => hw.empty hs, schema := by simp, told := ?_, same := ?_, .. }, by simp, by simp, rfl, rfl, rfl, by simp⟩
      · intro o ho
        simp only [List.mem_append, List.mem_singleton] at ho
        rcases ho with ho | rfl
        · exact h.told o ho
        · exact ⟨[], _, hep, Or.inl ⟨rfl, e, rfl, rfl⟩⟩
      · intro s' ho
        simp only [List.mem_append, List.mem_singleton, reduceCtorEq, or_false] at ho
        exact hs.symm.trans (h.same s' ho)
    | .ok inst =>
      obtain ⟨hinst, hnone⟩ := hok inst rfl
      have hxs : ys = [] → t' = .ok none := by
        rintro rfl
        exact hnone hinst
      simp only at he
      generalize hf : infer w.mem inst = f at he
      obtain ⟨fo, mem⟩ := f
      have hexp : Explains r infer fo := ⟨ys, t', hep, Or.inr ⟨hxs, w.mem, by rw [← hinst, hf]⟩⟩
      have hno : ∀ s : S, Res.ok (some s) ∉ w.told := by
        intro s hx
        rw [h.same s hx] at hs
        simp at hs
      have htold : ∀ o ∈ w.told ++ [fo], Explains r infer o := by
        intro o ho
        simp only [List.mem_append, List.mem_singleton] at ho
        rcases ho with ho | rfl
        · exact h.told o ho
        · exact hexp
      match fo with
      | .ok s =>
        simp only [Prod.mk.injEq] at he
        obtain ⟨rfl, rfl⟩ := he
        have hholl : s = none → Hollow r bs ys t' := by
          rintro rfl
          have : inst = none := by
            cases inst with
            | none => rfl
            | some x => exact absurd (by rw [hf]) (hnn w.mem x)
          have hys : ys = [] := by
            rw [this] at hinst
            cases ys with
            | nil => rfl
            | cons y ys => simp at hinst
          have ht := hxs hys
          subst hys ht
          exact h.hollow hs
        refine ⟨{ hw with empty := ?_, schema := ?_, told := htold, same := ?_, .. }, by simp, fun h1 _ => hholl h1, rfl, rfl, rfl, by simp⟩
        · intro h1 _
          exact hholl h1
        · intro s' h1
          simp only at h1
          subst h1
          exact ⟨ys, t', w.mem, hep, hxs, by rw [← hinst, hf]⟩
        · intro s' ho
          simp only [List.mem_append, List.mem_singleton, Res.ok.injEq] at ho
          rcases ho with ho | ho
          · exact absurd ho (hno s')
          · exact ho.symm
      | .err e =>
        simp only [Prod.mk.injEq] at he
        obtain ⟨rfl, rfl⟩ := he
        refine ⟨{ hw with empty := fun _ => hw.empty hs, schema := ?_, told := htold, same := ?_, .. }, by simp, by simp, rfl, rfl, rfl, by simp⟩
        · intro s' h1
          simp at h1
        · intro s' ho
          simp only [List.mem_append, List.mem_singleton, reduceCtorEq, or_false] at ho
          exact absurd ho (hno s')
      | .ub u =>
        simp only [Prod.mk.injEq] at he
        obtain ⟨rfl, rfl⟩ := he
        refine ⟨{ hw with empty := fun _ => hw.empty hs, schema := ?_, told := htold, same := ?_, .. }, by simp, by simp, rfl, rfl, rfl, by simp⟩
        · intro s' h1
          simp at h1
        · intro s' ho
          simp only [List.mem_append, List.mem_singleton, reduceCtorEq, or_false] at ho
          exact absurd ho (hno s')

theorem dstep_started {m : Machine (Batch α)} {d d' : DState m ε} {pos : Nat} (hp : PInv P Q dec bs t pos d.p) {a : DAct}
    (hd : dstep P Q size dec a d = some d') (hn : d.p.status = .notStarted) (hn' : d'.p.status ≠ .notStarted) :
    (∃ c, a = .call c) ∧ d.peeked = none := by
  have hidle : d.p.consumer = .idle := by
    obtain ⟨_, _, _, _, _, _, _, _, h, _⟩ := hp.fresh hn
    exact h
  cases a with
  | call c =>
    refine ⟨⟨c, rfl⟩, ?_⟩
    cases hpk : d.peeked with
    | none => rfl
    | some e =>
      simp only [dstep, dCall, if_pos hidle, hpk] at hd
      cases c <;> simp only [Option.some.injEq] at hd <;> rw [← hd] at hn' <;> exact absurd hn hn'
  | reset =>
    simp only [dstep, pCallReset, if_pos hidle, if_pos hn, Option.map_some, Option.some.injEq] at hd
    rw [← hd] at hn'
    simp [DState.afterReset, PState.afterStop] at hn'
  | sys a =>
    simp only [dstep] at hd
    by_cases ha : a.isCall = true
    · rw [if_pos ha] at hd; simp at hd
    · rw [if_neg ha, notStarted_stuck hn hidle a (by simpa using ha)] at hd
      simp at hd

theorem WInv.dact (hP : 0 < P) (hm : Sources (batched b l r.base)) (hr : Epochs r) {w : WState b l r ε S ι}
    {d' : DState (batched b l r.base) ε} (h : WInv P Q size dec infer bs t ys t' w) {a : DAct}
    (hd : dstep P Q size dec a w.d = some d')
    (hc : w.schema = none → (∃ c, a = .call c) → w.d.peeked = none → Hollow r bs ys t') :
    ∃ bs t ys t', WInv P Q size dec infer bs t ys t' { w with d := d' } := by
  obtain ⟨hs', he'⟩ := DInv.step' hP hm.2 h.si h.ei hd
  have hreset : ∀ (u : r.base.σ × Nat) bs1 t1, d' = DState.afterReset ({ src := (batched b l r.base).reset u, start := (batched b l r.base).reset u } : PState (batched b l r.base) ε) →
      EInv P Q size dec bs1 t1 d' → ∃ bs t ys t', WInv P Q size dec infer bs t ys t' { w with d := d' } := by
    intro u bs1 t1 hd' he1
    obtain ⟨xs, T, hT, hx⟩ := hr.2 u.1.1
    refine ⟨bs1, t1, xs, T, ?_⟩
    have hst : d'.p.status = .notStarted := by rw [hd']; rfl
    exact {
      si := hs'
      ei := he1
      reply := fun h1 => by simp only at h1; rw [hst] at h1; simp at h1
      tail := hT
      inner := by
        show r.base.Yields d'.p.src.1 xs T
        rw [hd']
        exact base_yields hx
      first := fun _ => ⟨hT, _, Or.inr ⟨u.1.1, rfl⟩, hx⟩
      empty := fun _ h1 => absurd hst h1
      race := h.race
      schema := h.schema
      told := h.told
      same := h.same }
  rcases he' with he' | ⟨u, bs1, t1, hd', he1⟩
  · have hstart : w.d.p.status = .notStarted → d'.p.status ≠ .notStarted → (∃ c, a = .call c) ∧ w.d.peeked = none := by
      obtain ⟨_, ⟨pos, hp⟩, _⟩ := h.ei
      exact dstep_started hp hd
    rcases dstep_cases h.si hd with ⟨c, e, h1, h2⟩ | ⟨pa, h1, h2, h3, h4, _⟩ | ⟨pa, u, h1, h2⟩
    · have hp : d'.p = w.d.p := by rw [h2]
      refine ⟨bs, t, ys, t', ?_⟩
      exact {
        si := hs'
        ei := he'
        reply := by show Told d'.p; rw [hp]; exact h.reply
        tail := h.tail
        inner := by show r.base.Yields d'.p.src.1 ys t'; rw [hp]; exact h.inner
        first := by show d'.p.status = _ → _; rw [hp]; exact h.first
        empty := by show _ → d'.p.status ≠ _ → _; rw [hp]; exact h.empty
        race := h.race
        schema := h.schema
        told := h.told
        same := h.same }
    · obtain ⟨h5, h6, h7, h8⟩ := pstep_src h1 h2 h3
      have hin : ∃ zs, r.base.Yields d'.p.src.1 zs t' ∧ (ys = [] → zs = []) ∧ (w.d.p.status = .notStarted → zs = ys) := by
        rcases h5 with h5 | ⟨h5, h9⟩
        · exact ⟨ys, by rw [h5]; exact h.inner, id, fun _ => rfl⟩
        · obtain ⟨o, j1, j2, k', zs, e1, _, e3, _, e5⟩ :=
            batchRead_congr (b := b) (l := l) (k := w.d.p.src.2) h.tail h.inner h.inner
          refine ⟨zs, ?_, e5, fun hx => by rw [h5] at hx; simp at hx⟩
          rw [h9]
          show r.base.Yields (batchRead b l r.base (w.d.p.src.1, w.d.p.src.2)).2.1 zs t'
          rw [e1]
          exact e3
      obtain ⟨zs, hz1, hz2, hz3⟩ := hin
      have hnot : d'.p.status = .notStarted → w.d.p.status = .notStarted := by
        intro hx
        apply Decidable.byContradiction
        intro hy
        exact h6 hy hx
      refine ⟨bs, t, zs, t', ?_⟩
      exact {
        si := hs'
        ei := he'
        reply := h8 h.reply
        tail := h.tail
        inner := hz1
        first := fun hx => by
          rw [hz3 (hnot hx)]
          exact h.first (hnot hx)
        empty := fun hx hy => by
          have hh : Hollow r bs ys t' := by
            by_cases hn : w.d.p.status = .notStarted
            · obtain ⟨hc1, hc2⟩ := hstart hn hy
              exact hc hx hc1 hc2
            · exact h.empty hx hn
          obtain ⟨e1, e2, e3, e4⟩ := hh
          exact ⟨e1, hz2 e2, e3, e4⟩
        race := h.race
        schema := h.schema
        told := h.told
        same := h.same }
    · exact hreset u bs t h2 he'
  · exact hreset u bs1 t1 hd' he1

theorem WInv.step (hP : 0 < P) (hm : Sources (batched b l r.base)) (hr : Epochs r)
    (hnn : ∀ mem x, (infer mem (some x)).1 ≠ .ok none) {w w' : WState b l r ε S ι}
    (h : WInv P Q size dec infer bs t ys t' w) {a : WAct} (hw : wstep P Q size dec infer a w = some w') :
    (∃ bs t ys t', WInv P Q size dec infer bs t ys t' w') ∧ ∀ s, w.schema = some s → w'.schema = some s := by
  have hdact : ∀ a : DAct, (∀ c, a = .call c → w.d.peeked ≠ none) →
      (dstep P Q size dec a w.d).map (fun d => { w with d := d }) = some w' →
      (∃ bs t ys t', WInv P Q size dec infer bs t ys t' w') ∧ ∀ s, w.schema = some s → w'.schema = some s := by
    intro a ha hx
    simp only [Option.map_eq_some_iff] at hx
    obtain ⟨d, hd, rfl⟩ := hx
    refine ⟨h.dact hP hm hr hd ?_, fun _ h => h⟩
    rintro _ ⟨c, hc⟩ hpk
    exact absurd hpk (ha c hc)
  cases a with
  | readSchema =>
    simp only [wstep] at hw
    split at hw
    · rename_i hi
      generalize he : ensureSchema infer w = p at hw
      obtain ⟨o, w1⟩ := p
      simp only [Option.some.injEq] at hw
      subst hw
      obtain ⟨h1, _, _, _, _, _, h2⟩ := h.ensure hnn hi he
      exact ⟨⟨bs, t, ys, t', h1⟩, h2⟩
    · simp at hw
  | dact a =>
    cases a with
    | sys a => exact hdact _ (by simp) hw
    | reset => exact hdact _ (by simp) hw
    | call c =>
      simp only [wstep] at hw
      split at hw
      · rename_i hi
        generalize he : ensureSchema infer w = p at hw
        obtain ⟨o, w1⟩ := p
        obtain ⟨h1, h2, h3, _, _, h4, h5⟩ := h.ensure hnn hi.1 he
        match o with
        | .ok s =>
          simp only [Option.map_eq_some_iff] at hw
          obtain ⟨d, hd, rfl⟩ := hw
          refine ⟨?_, h5⟩
          refine h1.dact (a := .call c) hP hm hr hd ?_
          intro hx _ _
          have := h2 s rfl
          simp only at hx
          rw [hx] at this
          subst this
          exact h3 hx rfl
        | .err e =>
          simp only [Option.some.injEq] at hw
          subst hw
          exact ⟨⟨bs, t, ys, t', h1⟩, h5⟩
        | .ub u =>
          simp only [Option.some.injEq] at hw
          subst hw
          exact ⟨⟨bs, t, ys, t', h1⟩, h5⟩
      · rename_i hi
        cases hpk : w.d.peeked with
        | some e => exact hdact (.call c) (by simp [hpk]) hw
        | none =>
          have : ¬ w.d.p.consumer = .idle := fun hx => hi ⟨hx, by rw [hpk]; rfl⟩
          simp [dCall, this] at hw

/-- The states that any schedule and any mix of calls lead to. -/
def WReachable (P Q : Nat) (size : α → Nat) (dec : Batch α → Except Err (Option ε)) (infer : Infer α S ι) (mem : ι)
    (w : WState b l r ε S ι) : Prop :=
  ∃ as, wrun P Q size dec infer as (WState.init b l r mem) = some w

theorem wrun_inv (hP : 0 < P) (hm : Sources (batched b l r.base)) (hr : Epochs r)
    (hnn : ∀ mem x, (infer mem (some x)).1 ≠ .ok none) (as : List WAct) {w w' : WState b l r ε S ι}
    (h : ∃ bs t ys t', WInv P Q size dec infer bs t ys t' w) (hw : wrun P Q size dec infer as w = some w') :
    (∃ bs t ys t', WInv P Q size dec infer bs t ys t' w') ∧ ∀ s, w.schema = some s → w'.schema = some s := by
  induction as generalizing w with
  | nil => simp [wrun] at hw; subst hw; exact ⟨h, fun _ h => h⟩
  | cons a as ih =>
    simp only [wrun, Option.bind_eq_some_iff] at hw
    obtain ⟨w1, h1, h2⟩ := hw
    obtain ⟨bs, t, ys, t', h⟩ := h
    obtain ⟨h3, h4⟩ := h.step hP hm hr hnn h1
    obtain ⟨h5, h6⟩ := ih h3 h2
    exact ⟨h5, fun s hs => h6 s (h4 s hs)⟩

theorem winv (hP : 0 < P) (hm : Sources (batched b l r.base)) (hr : Epochs r)
    (hnn : ∀ mem x, (infer mem (some x)).1 ≠ .ok none) {mem : ι} {w : WState b l r ε S ι}
    (hw : WReachable P Q size dec infer mem w) : ∃ bs t ys t', WInv P Q size dec infer bs t ys t' w := by
  obtain ⟨as, hw⟩ := hw
  refine (wrun_inv hP hm hr hnn as ?_ hw).1
  obtain ⟨bs, t, h⟩ := hm.1
  obtain ⟨xs, T, hT, hx⟩ := hr.1
  refine ⟨bs, t, xs, T, ?_⟩
  exact {
    si := SInv.fresh _ rfl rfl
    ei := ⟨h, ⟨0, PInv.init _ h⟩, 0, [], BInv.init _ h⟩
    reply := fun h1 => by simp [WState.init, DState.init, PState.init] at h1
    tail := hT
    inner := base_yields hx
    first := fun _ => ⟨hT, _, Or.inl rfl, hx⟩
    empty := fun _ h1 => absurd rfl h1
    race := rfl
    schema := by simp [WState.init]
    told := by simp [WState.init]
    same := by simp [WState.init] }

theorem attempts_ensure (hnn : ∀ mem x, (infer mem (some x)).1 ≠ .ok none) {mem0 : ι} {w w' : WState b l r ε S ι}
    (h : WInv P Q size dec infer bs t ys t' w) (hi : w.d.p.consumer = .idle) {o : Res (Option S)}
    (he : ensureSchema infer w = (o, w')) (ha : Attempts r infer mem0 w.told w.mem)
    (hk : ∀ s, w.schema = some s → .ok (some s) ∈ w.told) :
    Attempts r infer mem0 (w'.told ++ [o]) w'.mem ∧ ∀ s, w'.schema = some s → .ok (some s) ∈ w'.told ++ [o] := by
  unfold ensureSchema at he
  cases hs : w.schema with
  | some s =>
    rw [hs] at he
    simp only [Prod.mk.injEq] at he
    obtain ⟨rfl, rfl⟩ := he
    refine ⟨.known ha (hk s hs), fun s' h' => ?_⟩
    rw [hs] at h'
    cases h'
    simp
  | none =>
    have hep := h.epoch hs
    have hno : ∀ s : S, Res.ok (some s) ∉ w.told := by
      intro s hx
      rw [h.same s hx] at hs
      simp at hs
    rw [hs] at he
    simp only at he
    generalize hp : basePeek r w.d.p.src.1 = pk at he
    obtain ⟨po, i⟩ := pk
    obtain ⟨hy, hok, herr, hub⟩ := peek_yields h.tail h.inner hp
    match po with
    | .ub u => exact absurd rfl (hub u)
    | .err e =>
      simp only [Prod.mk.injEq] at he
      obtain ⟨rfl, rfl⟩ := he
      obtain ⟨rfl, rfl⟩ := herr e rfl
      exact ⟨.failed ha hep hno, by simp⟩
    | .ok inst =>
      obtain ⟨hinst, hnone⟩ := hok inst rfl
      have hxs : ys = [] → t' = .ok none := by
        rintro rfl
        exact hnone hinst
      have hasked := Attempts.asked ha hep hxs hno
      rw [← hinst] at hasked
      simp only at he
      generalize hf : infer w.mem inst = f at he hasked
      obtain ⟨fo, mem⟩ := f
      match fo with
      | .ok s =>
        simp only [Prod.mk.injEq] at he
        obtain ⟨rfl, rfl⟩ := he
        refine ⟨hasked, fun s' h' => ?_⟩
        simp only at h'
        rw [h']
        simp
      | .err e =>
        simp only [Prod.mk.injEq] at he
        obtain ⟨rfl, rfl⟩ := he
        exact ⟨hasked, by simp⟩
      | .ub u =>
        simp only [Prod.mk.injEq] at he
        obtain ⟨rfl, rfl⟩ := he
        exact ⟨hasked, by simp⟩

theorem attempts_step (hnn : ∀ mem x, (infer mem (some x)).1 ≠ .ok none) {mem0 : ι} {w w' : WState b l r ε S ι}
    (h : WInv P Q size dec infer bs t ys t' w) {a : WAct} (hw : wstep P Q size dec infer a w = some w')
    (ha : Attempts r infer mem0 w.told w.mem) (hk : ∀ s, w.schema = some s → .ok (some s) ∈ w.told) :
    Attempts r infer mem0 w'.told w'.mem ∧ ∀ s, w'.schema = some s → .ok (some s) ∈ w'.told := by
  have key : ∀ {x : Option (DState (batched b l r.base) ε)}, x.map (fun d => { w with d := d }) = some w' →
      Attempts r infer mem0 w'.told w'.mem ∧ ∀ s, w'.schema = some s → .ok (some s) ∈ w'.told := by
    intro x hx
    simp only [Option.map_eq_some_iff] at hx
    obtain ⟨d, _, rfl⟩ := hx
    exact ⟨ha, hk⟩
  cases a with
  | readSchema =>
    simp only [wstep] at hw
    split at hw
    · rename_i hi
      generalize he : ensureSchema infer w = p at hw
      obtain ⟨o, w1⟩ := p
      simp only [Option.some.injEq] at hw
      subst hw
      exact attempts_ensure hnn h hi he ha hk
    · simp at hw
  | dact a =>
    cases a with
    | sys a => exact key hw
    | reset => exact key hw
    | call c =>
      simp only [wstep] at hw
      split at hw
      · rename_i hi
        generalize he : ensureSchema infer w = p at hw
        obtain ⟨o, w1⟩ := p
        have := attempts_ensure hnn h hi.1 he ha hk
        match o with
        | .ok s =>
          simp only [Option.map_eq_some_iff] at hw
          obtain ⟨d, hd, rfl⟩ := hw
          exact this
        | .err e =>
          simp only [Option.some.injEq] at hw
          subst hw
          exact this
        | .ub u =>
          simp only [Option.some.injEq] at hw
          subst hw
          exact this
      · exact key hw

theorem attempts_reachable (hP : 0 < P) (hm : Sources (batched b l r.base)) (hr : Epochs r)
    (hnn : ∀ mem x, (infer mem (some x)).1 ≠ .ok none) {mem : ι} {w : WState b l r ε S ι}
    (hw : WReachable P Q size dec infer mem w) : Attempts r infer mem w.told w.mem := by
  obtain ⟨as, hw⟩ := hw
  have key : ∀ (as : List WAct) (w0 : WState b l r ε S ι), (∃ bs t ys t', WInv P Q size dec infer bs t ys t' w0) →
      Attempts r infer mem w0.told w0.mem → (∀ s, w0.schema = some s → .ok (some s) ∈ w0.told) →
      wrun P Q size dec infer as w0 = some w → Attempts r infer mem w.told w.mem := by
    intro as
    induction as with
    | nil => intro w0 _ h0 _ h; simp [wrun] at h; subst h; exact h0
    | cons a as ih =>
      intro w0 hi h0 hk h
      simp only [wrun, Option.bind_eq_some_iff] at h
      obtain ⟨w1, h1, h2⟩ := h
      obtain ⟨bs, t, ys, t', hi⟩ := hi
      obtain ⟨h3, h4⟩ := attempts_step hnn hi h1 h0 hk
      exact ih w1 (hi.step hP hm hr hnn h1).1 h3 h4 h2
  exact key as _ (winv hP hm hr hnn ⟨[], rfl⟩) .none (by simp [WState.init]) hw

end

/-- What the first attempt leads to; if it gives a schema, it decides. -/
theorem attempts_first {α S ι : Type} {r : Machine α} {infer : Infer α S ι} {mem m : ι} {told : List (Res (Option S))}
    (h : Attempts r infer mem told m) :
    (told = [] → m = mem) ∧ ∀ o rest, told = o :: rest →
      ∃ xs t, EpochOf r xs t ∧ ((xs = [] ∧ ∃ e, t = .err e ∧ o = .err e) ∨
        ((xs = [] → t = .ok none) ∧ (infer mem xs.head?).1 = o ∧ ∀ s, o = .ok (some s) → (infer mem xs.head?).2 = m)) := by
  induction h with
  | none => exact ⟨fun _ => rfl, by simp⟩
  | failed _ he hn ih =>
    rename_i told' _ e _
    refine ⟨by simp, fun o rest eq => ?_⟩
    cases told' with
    | nil =>
      simp only [List.nil_append, List.cons.injEq] at eq
      exact ⟨[], _, he, .inl ⟨rfl, e, rfl, eq.1.symm⟩⟩
    | cons y ys =>
      simp only [List.cons_append, List.cons.injEq] at eq
      obtain ⟨rfl, _⟩ := eq
      exact ih.2 y ys rfl
  | asked _ he hx hn ih =>
    rename_i told' _ _ _ _
    refine ⟨by simp, fun o rest eq => ?_⟩
    cases told' with
    | nil =>
      simp only [List.nil_append, List.cons.injEq] at eq
      have := ih.1 rfl
      subst this
      exact ⟨_, _, he, .inr ⟨hx, eq.1, fun _ _ => rfl⟩⟩
    | cons y ys =>
      simp only [List.cons_append, List.cons.injEq] at eq
      obtain ⟨rfl, _⟩ := eq
      obtain ⟨xs, t, h1, h2 | ⟨h2, h3, _⟩⟩ := ih.2 y ys rfl
      · exact ⟨xs, t, h1, .inl h2⟩
      · refine ⟨xs, t, h1, .inr ⟨h2, h3, fun s hs => ?_⟩⟩
        subst hs
        exact absurd (by simp) (hn s)
  | known _ hm ih =>
    rename_i told' _ _ _
    refine ⟨by simp, fun o rest eq => ?_⟩
    cases told' with
    | nil => cases hm
    | cons y ys =>
      simp only [List.cons_append, List.cons.injEq] at eq
      obtain ⟨rfl, _⟩ := eq
      exact ih.2 y ys rfl

/-- If the first attempt gives a schema, all do. -/
theorem attempts_all {α S ι : Type} {r : Machine α} {infer : Infer α S ι} {mem m : ι} {told : List (Res (Option S))}
    (h : Attempts r infer mem told m) (hd : ∀ o, told.head? = some o → ∃ s, o = .ok (some s)) : ∀ o ∈ told, ∃ s, o = .ok (some s) := by
  induction h with
  | none => simp
  | failed _ _ hn _ =>
    rename_i told' _ _ _ _ _
    cases told' with
    | nil => intro o ho; exact hd o (by simp only [List.nil_append, List.mem_singleton] at ho; simp [ho])
    | cons y ys =>
      obtain ⟨s, rfl⟩ := hd y rfl
      exact absurd (by simp) (hn s)
  | asked _ _ _ hn _ =>
    rename_i told' _ _ _ _ _ _ _
    cases told' with
    | nil => intro o ho; exact hd o (by simp only [List.nil_append, List.mem_singleton] at ho; simp [ho])
    | cons y ys =>
      obtain ⟨s, rfl⟩ := hd y rfl
      exact absurd (by simp) (hn s)
  | known _ hm ih =>
    rename_i told' _ s _
    cases told' with
    | nil => cases hm
    | cons y ys =>
      intro o ho
      rcases List.mem_append.1 ho with ho | ho
      · exact ih (fun o ho => hd o (by simpa using ho)) o ho
      · exact ⟨s, by simpa using ho⟩

end Mlio
