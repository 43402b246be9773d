import Verif.Spec.SharedStore

/-! # Lemmas for data stores that several threads use -/

namespace Mlio
open Spec

variable {stores : Nat → AnyStore} {info : Bool}

theorem id_ne_nil {s : AnyStore} (h : NameComputed s) : s.id ≠ [] := by
  cases s with
  | memory a n c => simp [AnyStore.id, memoryId]
  | object uri v c =>
    have hv : v ≠ [] := h
    simp [AnyStore.id, hv]
  | file => exact h.elim
  | pipe => exact h.elim
  | python => exact h.elim

/-- The name is there, if it is one that is computed. -/
def Named (stores : Nat → AnyStore) (s : StoreState) (k : Nat) : Prop := NameComputed (stores k) → s.ids k = (stores k).id

/-- What a thread may have before it. -/
inductive Pending (stores : Nat → AnyStore) (s : StoreState) : List StoreMicro → Prop
  | nil : Pending stores s []
  | use (k : Nat) (h : Named stores s k) : Pending stores s [.use k]
  | check (k : Nat) (h : ∀ p m c, stores k ≠ .file p m c) (h2 : ∀ p c, stores k ≠ .pipe p c) (h3 : ∀ x, stores k ≠ .python x) :
      Pending stores s [.check k, .use k]
  | fill (k : Nat) (h : NameComputed (stores k)) : Pending stores s [.fill k, .use k]
  | python (k : Nat) (h : ∃ name, stores k = .python name) : Pending stores s [.callPython k, .use k]
  | get (k : Nat) : Pending stores s [.getFifo k]
  | clear (k : Nat) (n : Option Nat) : Pending stores s [.clearFifo k n]
  | channel (k : Nat) (n : Option Nat) : Pending stores s [.channel k n]

theorem named_of_given {s : StoreState} {k : Nat} (h : ¬ NameComputed (stores k)) : Named stores s k := fun h' => absurd h' h

theorem pending_mono {s s' : StoreState} (h : ∀ k, Named stores s k → Named stores s' k) {l : List StoreMicro}
    (hp : Pending stores s l) : Pending stores s' l := by
  cases hp with
  | nil => exact .nil
  | use k hk => exact .use k (h k hk)
  | check k h1 h2 h3 => exact .check k h1 h2 h3
  | fill k hk => exact .fill k hk
  | python k hk => exact .python k hk
  | get k => exact .get k
  | clear k n => exact .clear k n
  | channel k n => exact .channel k n

theorem pending_id (s : StoreState) (k : Nat) : Pending stores s (idMicros (stores k) k) := by
  unfold idMicros
  cases h : stores k with
  | file => exact .use k (named_of_given (by simp [h, NameComputed]))
  | memory => exact .check k (by simp [h]) (by simp [h]) (by simp [h])
  | object => exact .check k (by simp [h]) (by simp [h]) (by simp [h])
  | pipe => exact .use k (named_of_given (by simp [h, NameComputed]))
  | python n => exact .python k ⟨n, h⟩

theorem pending_call (s : StoreState) (c : StoreCall) : Pending stores s (callMicros stores info c) := by
  cases c with
  | id k => exact pending_id s k
  | openRead k =>
    simp only [callMicros]
    split
    · split
      · exact pending_id s k
      · exact .nil
    · split
      · exact pending_id s k
      · exact .nil
    · exact .get k
    · exact .nil

structure SharedInv (stores : Nat → AnyStore) (s : StoreState) : Prop where
  ids : ∀ k, s.ids k = [] ∨ s.ids k = (stores k).id
  todo : ∀ t, Pending stores s (s.todo t)
  names : ∀ k name, (k, name) ∈ s.names → (∀ x, stores k ≠ .python x) → name = (stores k).id

theorem named_mono (s s' : StoreState) (h : s'.ids = s.ids) : ∀ k, Named stores s k → Named stores s' k := by
  intro k hk hc
  rw [h]
  exact hk hc

theorem nameOf_named {s : StoreState} {k : Nat} (h : Named stores s k) (hp : ∀ x, stores k ≠ .python x) :
    s.nameOf stores k = (stores k).id := by
  unfold StoreState.nameOf
  cases hs : stores k with
  | file => rfl
  | memory a n c =>
    have := h (by simp [hs, NameComputed])
    rw [hs] at this
    exact this
  | object uri v c =>
    by_cases hv : v = []
    · simp [AnyStore.id, hv]
    · have := h (by simp [hs, NameComputed, hv])
      rw [hs] at this
      simp [this, hv]
  | pipe => rfl
  | python x => exact absurd hs (hp x)

theorem pending_ids {s s' : StoreState} (h : s'.ids = s.ids) {l : List StoreMicro} (hp : Pending stores s l) :
    Pending stores s' l := pending_mono (named_mono s s' h) hp

/-- After a step of a thread the others have the same before them. -/
theorem micro_todo (s : StoreState) (m : StoreMicro) (rest : List StoreMicro) : (microStep stores s m rest).1.todo = s.todo := by
  cases m <;> simp only [microStep] <;> (try split) <;> rfl

theorem shared_step (s s' : StoreState) (a : StoreAct) (hI : SharedInv stores s) (hs : storeStep stores info s a = some s') :
    SharedInv stores s' := by
  cases a with
  | call t c =>
    simp only [storeStep] at hs
    split at hs
    · cases hs
      refine ⟨hI.ids, fun u => ?_, hI.names⟩
      simp only
      split
      · exact pending_ids (s := s) (by rfl) (pending_call s c)
      · exact pending_ids (s := s) (by rfl) (hI.todo u)
    · cases hs
  | run t =>
    simp only [storeStep] at hs
    cases htd : s.todo t with
    | nil => simp [htd] at hs
    | cons m rest =>
      simp only [htd, Option.some.injEq] at hs
      have hp := hI.todo t
      rw [htd] at hp
      have finish : ∀ (s1 : StoreState) (rest1 : List StoreMicro), microStep stores s m rest = (s1, rest1) →
          (∀ k, Named stores s k → Named stores s1 k) → (∀ k, s1.ids k = [] ∨ s1.ids k = (stores k).id) →
          Pending stores s1 rest1 → (∀ k name, (k, name) ∈ s1.names → (∀ x, stores k ≠ .python x) → name = (stores k).id) →
          SharedInv stores s' := by
        intro s1 rest1 e hn hi hr hnm
        have ht : s1.todo = s.todo := by
          have := micro_todo (stores := stores) s m rest
          rw [e] at this
          exact this
        rw [e] at hs
        rw [← hs]
        refine ⟨hi, fun u => ?_, hnm⟩
        simp only
        split
        · exact pending_ids (s := s1) (by rfl) hr
        · rw [ht]
          exact pending_ids (s := s1) (by rfl) (pending_mono hn (hI.todo u))
      cases hp with
      | use k hk =>
        refine finish { s with names := s.names ++ [(k, s.nameOf stores k)] } [] rfl (named_mono s _ rfl) hI.ids .nil ?_
        intro j name hj hx
        rcases List.mem_append.1 hj with hj | hj
        · exact hI.names j name hj hx
        · simp only [List.mem_singleton, Prod.mk.injEq] at hj
          obtain ⟨rfl, rfl⟩ := hj
          exact nameOf_named hk hx
      | check k h1 h2 h3 =>
        have key : ∀ b : Bool, (b = true → NameComputed (stores k)) → (b = false → Named stores s k) →
            microStep stores s (.check k) [.use k] = (s, if b then [.fill k, .use k] else [.use k]) → SharedInv stores s' := by
          intro b b1 b2 e
          refine finish s _ e (fun _ h => h) hI.ids ?_ hI.names
          cases b with
          | true => exact .fill k (b1 rfl)
          | false => exact .use k (b2 rfl)
        have given : (s.ids k).isEmpty = false → Named stores s k := by
          intro h hc
          rcases hI.ids k with e | e
          · rw [e] at h
            cases h
          · exact e
        cases hst : stores k with
        | object uri v c =>
          refine key ((s.ids k).isEmpty && !v.isEmpty) ?_ ?_ (by simp only [microStep, hst])
          · intro h
            simp only [Bool.and_eq_true, Bool.not_eq_true', List.isEmpty_eq_false_iff] at h
            rw [hst]
            exact h.2
          · intro h
            cases he : (s.ids k).isEmpty with
            | false => exact given he
            | true =>
              rw [he] at h
              refine named_of_given ?_
              rw [hst]
              simpa [NameComputed] using h
        | memory a n c =>
          refine key (s.ids k).isEmpty (fun _ => by simp [hst, NameComputed]) given (by simp only [microStep, hst])
        | file p mm c => exact absurd hst (h1 p mm c)
        | pipe p c => exact absurd hst (h2 p c)
        | python x => exact absurd hst (h3 x)
      | fill k hk =>
        refine finish { s with ids := fun j => if j = k then (stores k).id else s.ids j } [.use k] rfl ?_ ?_ ?_ hI.names
        · intro j hj hc
          simp only
          split
          · rename_i e; rw [e]
          · exact hj hc
        · intro j
          simp only
          split
          · rename_i e; rw [e]; exact .inr rfl
          · exact hI.ids j
        · exact .use k fun _ => by simp
      | python k hk =>
        exact finish { s with python := (stores k).id } [.use k] rfl (named_mono s _ rfl) hI.ids (.use k (named_of_given (by obtain ⟨x, hx⟩ := hk; simp [hx, NameComputed]))) hI.names
      | get k => exact finish s _ rfl (fun _ h => h) hI.ids (.clear k _) hI.names
      | clear k n =>
        exact finish { s with fifo := fun j => if j = k then none else s.fifo j } _ rfl (named_mono s _ rfl) hI.ids (.channel k n) hI.names
      | channel k n =>
        cases hst : stores k with
        | pipe p c =>
          exact finish { s with table := if s.table.contains p then s.table else p :: s.table, opened := s.opened ++ [(k, n)] } []
            (by simp only [microStep, hst]) (named_mono s _ rfl) hI.ids .nil hI.names
        | _ => exact finish s [] (by simp only [microStep, hst]) (fun _ h => h) hI.ids .nil hI.names

theorem shared_run (as : List StoreAct) : ∀ (s s' : StoreState), SharedInv stores s → storeRun stores info s as = some s' →
    SharedInv stores s' := by
  induction as with
  | nil =>
    intro s s' hI h
    cases h
    exact hI
  | cons a as ih =>
    intro s s' hI h
    simp only [storeRun] at h
    cases h1 : storeStep stores info s a with
    | none => simp [h1] at h
    | some s1 =>
      simp only [h1, Option.bind_some] at h
      exact ih s1 s' (shared_step s s1 a hI h1) h

/-! ## CarefulRun programs -/

/-- What a thread of a careful program may have before it. -/
def TameMicro (stores : Nat → AnyStore) (known : List Bytes) (owner : Nat → Nat) (t : Nat) : StoreMicro → Prop
  | .check k => NameComputed (stores k) ∨ ∃ uri v c, stores k = .object uri v c
  | .fill _ => False
  | .use k => ∀ x, stores k ≠ .python x
  | .callPython _ => False
  | .getFifo k => owner k = t ∧ ∃ p c, stores k = .pipe p c ∧ p ∈ known
  | .clearFifo k _ => owner k = t ∧ ∃ p c, stores k = .pipe p c ∧ p ∈ known
  | .channel k _ => owner k = t ∧ ∃ p c, stores k = .pipe p c ∧ p ∈ known

structure TameInv (stores : Nat → AnyStore) (known : List Bytes) (owner : Nat → Nat) (s : StoreState) : Prop where
  named : ∀ k, NameComputed (stores k) → s.ids k ≠ []
  table : ∀ p ∈ known, p ∈ s.table
  todo : ∀ t m, m ∈ s.todo t → TameMicro stores known owner t m

variable {known : List Bytes} {owner : Nat → Nat}

theorem tame_id {t k : Nat} (h : ∀ name, stores k ≠ .python name) : ∀ m ∈ idMicros (stores k) k, TameMicro stores known owner t m := by
  intro m hm
  unfold idMicros at hm
  cases hs : stores k with
  | file => simp only [hs, List.mem_singleton] at hm; subst hm; exact h
  | memory =>
    simp only [hs, List.mem_cons, List.not_mem_nil, or_false] at hm
    rcases hm with rfl | rfl
    · exact .inl (by simp [hs, NameComputed])
    · exact h
  | object uri v c =>
    simp only [hs, List.mem_cons, List.not_mem_nil, or_false] at hm
    rcases hm with rfl | rfl
    · exact .inr ⟨uri, v, c, hs⟩
    · exact h
  | pipe => simp only [hs, List.mem_singleton] at hm; subst hm; exact h
  | python x => exact absurd hs (h x)

theorem tame_call {t : Nat} {c : StoreCall} (h : CarefulCall stores known owner t c) :
    ∀ m ∈ callMicros stores info c, TameMicro stores known owner t m := by
  cases c with
  | id k => exact tame_id h
  | openRead k =>
    intro m hm
    simp only [callMicros] at hm
    cases hs : stores k with
    | file => simp [hs] at hm
    | memory =>
      simp only [hs] at hm
      split at hm
      · rw [← hs] at hm; exact tame_id h.1 m hm
      · cases hm
    | object =>
      simp only [hs] at hm
      split at hm
      · rw [← hs] at hm; exact tame_id h.1 m hm
      · cases hm
    | pipe p c =>
      simp only [hs, List.mem_singleton] at hm
      subst hm
      exact ⟨(h.2 p c hs).1, p, c, hs, (h.2 p c hs).2⟩
    | python x => exact absurd hs (h.1 x)

/-- The calls that the actions begin are careful. -/
def CarefulRun (stores : Nat → AnyStore) (known : List Bytes) (owner : Nat → Nat) (as : List StoreAct) : Prop :=
  ∀ t c, StoreAct.call t c ∈ as → CarefulCall stores known owner t c

theorem tame_step (s s' : StoreState) (a : StoreAct) (hI : TameInv stores known owner s)
    (ha : ∀ t c, a = .call t c → CarefulCall stores known owner t c) (hs : storeStep stores info s a = some s') :
    TameInv stores known owner s' := by
  cases a with
  | call t c =>
    simp only [storeStep] at hs
    split at hs
    · cases hs
      refine ⟨hI.named, hI.table, fun u m hm => ?_⟩
      simp only at hm
      split at hm
      · rename_i e
        rw [e]
        exact tame_call (ha t c rfl) m hm
      · exact hI.todo u m hm
    · cases hs
  | run t =>
    simp only [storeStep] at hs
    cases htd : s.todo t with
    | nil => simp [htd] at hs
    | cons m rest =>
      simp only [htd, Option.some.injEq] at hs
      have hm : TameMicro stores known owner t m := hI.todo t m (by rw [htd]; exact List.mem_cons_self)
      have hrest : ∀ x ∈ rest, TameMicro stores known owner t x := fun x hx => hI.todo t x (by rw [htd]; exact List.mem_cons_of_mem _ hx)
      have finish : ∀ (s1 : StoreState) (rest1 : List StoreMicro), microStep stores s m rest = (s1, rest1) →
          s1.ids = s.ids → (∀ p ∈ s.table, p ∈ s1.table) → (∀ x ∈ rest1, TameMicro stores known owner t x) →
          TameInv stores known owner s' := by
        intro s1 rest1 e hi htb hr
        have ht : s1.todo = s.todo := by
          have := micro_todo (stores := stores) s m rest
          rw [e] at this
          exact this
        rw [e] at hs
        rw [← hs]
        refine ⟨fun k hk => ?_, fun p hp => htb p (hI.table p hp), fun u x hx => ?_⟩
        · simp only [hi]
          exact hI.named k hk
        · simp only at hx
          split at hx
          · rename_i eu
            rw [eu]
            exact hr x hx
          · rw [ht] at hx
            exact hI.todo u x hx
      cases m with
      | check k =>
        have key : microStep stores s (.check k) rest = (s, rest) := by
          rcases hm with hc | ⟨uri, v, c, hs⟩
          · have := hI.named k hc
            cases hs : stores k <;> simp [microStep, hs, this]
          · by_cases hv : v = []
            · simp [microStep, hs, hv]
            · have := hI.named k (by simp [hs, NameComputed, hv])
              simp [microStep, hs, this]
        exact finish s rest key rfl (fun _ h => h) hrest
      | fill k => exact hm.elim
      | use k => exact finish _ _ rfl rfl (fun _ h => h) hrest
      | callPython k => exact hm.elim
      | getFifo k =>
        refine finish _ _ rfl rfl (fun _ h => h) ?_
        intro x hx
        rcases List.mem_cons.1 hx with rfl | hx
        · exact hm
        · exact hrest x hx
      | clearFifo k n =>
        refine finish _ _ rfl rfl (fun _ h => h) ?_
        intro x hx
        rcases List.mem_cons.1 hx with rfl | hx
        · exact hm
        · exact hrest x hx
      | channel k n =>
        obtain ⟨ho, p, c, hp, hk⟩ := hm
        refine finish { s with table := if s.table.contains p then s.table else p :: s.table, opened := s.opened ++ [(k, n)] } rest
          (by simp only [microStep, hp]) rfl ?_ hrest
        intro q hq
        simp only
        split
        · exact hq
        · exact List.mem_cons_of_mem _ hq

theorem tame_run (as : List StoreAct) : ∀ (s s' : StoreState), TameInv stores known owner s → CarefulRun stores known owner as →
    storeRun stores info s as = some s' → TameInv stores known owner s' := by
  induction as with
  | nil =>
    intro s s' hI _ h
    cases h
    exact hI
  | cons a as ih =>
    intro s s' hI hc h
    simp only [storeRun] at h
    cases h1 : storeStep stores info s a with
    | none => simp [h1] at h
    | some s1 =>
      simp only [h1, Option.bind_some] at h
      exact ih s1 s' (tame_step s s1 a hI (fun t c e => hc t c (by rw [e]; exact List.mem_cons_self)) h1)
        (fun t c hm => hc t c (List.mem_cons_of_mem _ hm)) h

/-- What a careful thread writes belongs to it. -/
theorem tame_write {s : StoreState} (hI : TameInv stores known owner s) {t : Nat} {m : StoreMicro} {cell : StoreCell} {w l : Bool}
    (hm : TameMicro stores known owner t m) (ha : m.access stores s = some (cell, w, l)) :
    (w = true → ∃ k, cell = .fifo k ∧ owner k = t) ∧ ∀ k, cell = .fifo k → owner k = t := by
  cases m with
  | check k => simp only [StoreMicro.access, Option.some.injEq, Prod.mk.injEq] at ha; obtain ⟨rfl, rfl, rfl⟩ := ha; simp
  | fill k => exact hm.elim
  | use k =>
    simp only [StoreMicro.access] at ha
    cases hs : stores k with
    | file => simp [hs] at ha
    | memory => simp only [hs, Option.some.injEq, Prod.mk.injEq] at ha; obtain ⟨rfl, rfl, rfl⟩ := ha; simp
    | object uri v c =>
      simp only [hs] at ha
      split at ha
      · cases ha
      · simp only [Option.some.injEq, Prod.mk.injEq] at ha; obtain ⟨rfl, rfl, rfl⟩ := ha; simp
    | pipe => simp [hs] at ha
    | python x => exact absurd hs (hm x)
  | callPython k => exact hm.elim
  | getFifo k =>
    simp only [StoreMicro.access, Option.some.injEq, Prod.mk.injEq] at ha
    obtain ⟨rfl, rfl, rfl⟩ := ha
    refine ⟨by simp, ?_⟩
    intro j hj
    cases hj
    exact hm.1
  | clearFifo k n =>
    simp only [StoreMicro.access, Option.some.injEq, Prod.mk.injEq] at ha
    obtain ⟨rfl, rfl, rfl⟩ := ha
    refine ⟨fun _ => ⟨k, rfl, hm.1⟩, ?_⟩
    intro j hj
    cases hj
    exact hm.1
  | channel k n =>
    obtain ⟨ho, p, c, hp, hk⟩ := hm
    have := hI.table p hk
    simp only [StoreMicro.access, hp, Option.some.injEq, Prod.mk.injEq] at ha
    obtain ⟨rfl, rfl, rfl⟩ := ha
    simp [this]

theorem tame_no_race {s : StoreState} (hI : TameInv stores known owner s) (cell : StoreCell) : ¬ StoreRace stores s cell := by
  rintro ⟨t, u, m, n, w, w', l, l', hne, hm, hn, ha, hb, hw, _⟩
  have tm : TameMicro stores known owner t m := hI.todo t m (List.mem_of_head? hm)
  have tn : TameMicro stores known owner u n := hI.todo u n (List.mem_of_head? hn)
  obtain ⟨a1, a2⟩ := tame_write hI tm ha
  obtain ⟨b1, b2⟩ := tame_write hI tn hb
  rcases hw with hw | hw
  · obtain ⟨k, e, hk⟩ := a1 hw
    exact hne (hk.symm.trans (b2 k e))
  · obtain ⟨k, e, hk⟩ := b1 hw
    exact hne ((a2 k e).symm.trans hk)

/-! ## The numbers of a pipe that one thread opens -/

/-- A thread is opening the store. -/
def OpensK (k : Nat) : StoreMicro → Prop
  | .getFifo j => j = k
  | .clearFifo j _ => j = k
  | .channel j _ => j = k
  | _ => False

/-- The numbers that streams on the store were constructed with. -/
def fifoNumbers (k : Nat) (l : List (Nat × Option Nat)) : List (Option Nat) := (l.filter fun p => p.1 == k).map (·.2)

theorem fifoNumbers_append (k : Nat) (l : List (Nat × Option Nat)) (j : Nat) (n : Option Nat) :
    fifoNumbers k (l ++ [(j, n)]) = fifoNumbers k l ++ (if j = k then [n] else []) := by
  unfold fifoNumbers
  by_cases h : j = k <;> simp [h]

structure FifoInv (o k : Nat) (f0 : Option Nat) (s : StoreState) : Prop where
  owned : ∀ t m, m ∈ s.todo t → OpensK k m → t = o
  phase :
    (fifoNumbers k s.opened = [] ∧ s.fifo k = f0 ∧ ∀ n, .channel k n ∉ s.todo o ∧ (.clearFifo k n ∈ s.todo o → n = f0)) ∨
    (fifoNumbers k s.opened = [] ∧ s.fifo k = none ∧ s.todo o = [.channel k f0]) ∨
    ((∃ c, fifoNumbers k s.opened = f0 :: List.replicate c none) ∧ s.fifo k = none ∧
      ∀ n, (.channel k n ∈ s.todo o ∨ .clearFifo k n ∈ s.todo o) → n = none)

theorem opens_id {k j : Nat} {m : StoreMicro} (hm : m ∈ idMicros (stores j) j) : ¬ OpensK k m := by
  unfold idMicros at hm
  cases hs : stores j <;> simp only [hs, List.mem_cons, List.not_mem_nil, or_false] at hm <;> (first | (rcases hm with rfl | rfl) | subst hm) <;> exact fun h => h

theorem opens_call {k : Nat} {c : StoreCall} {m : StoreMicro} (hm : m ∈ callMicros stores info c) (ho : OpensK k m) :
    c = .openRead k ∧ m = .getFifo k := by
  cases c with
  | id j => exact absurd ho (opens_id hm)
  | openRead j =>
    simp only [callMicros] at hm
    split at hm
    · split at hm
      · exact absurd ho (opens_id hm)
      · cases hm
    · split at hm
      · exact absurd ho (opens_id hm)
      · cases hm
    · simp only [List.mem_singleton] at hm
      subst hm
      have : j = k := ho
      subst this
      exact ⟨rfl, rfl⟩
    · cases hm

theorem fifo_step {o k : Nat} {f0 : Option Nat} {p : Bytes} {c : Compression} (hk : stores k = .pipe p c) (s s' : StoreState)
    (a : StoreAct) (hS : SharedInv stores s) (hI : FifoInv o k f0 s) (ha : ∀ t, a = .call t (.openRead k) → t = o)
    (hs : storeStep stores info s a = some s') : FifoInv o k f0 s' := by
  cases a with
  | call t call =>
    simp only [storeStep] at hs
    split at hs
    · rename_i hidle
      cases hs
      have hnew : ∀ n, StoreMicro.channel k n ∉ callMicros stores info call ∧ StoreMicro.clearFifo k n ∉ callMicros stores info call := by
        intro n
        constructor <;> intro h <;> have := (opens_call h rfl).2 <;> simp at this
      refine ⟨?_, ?_⟩
      · intro u m hm ho
        simp only at hm
        split at hm
        · rename_i e
          obtain ⟨rfl, rfl⟩ := opens_call hm ho
          rw [e]
          exact ha t rfl
        · exact hI.owned u m hm ho
      · simp only
        rcases hI.phase with ⟨h1, h2, h3⟩ | ⟨h1, h2, h3⟩ | ⟨h1, h2, h3⟩
        · refine .inl ⟨h1, h2, fun n => ?_⟩
          split
          · exact ⟨(hnew n).1, fun h => absurd h (hnew n).2⟩
          · exact h3 n
        · refine .inr (.inl ⟨h1, h2, ?_⟩)
          split
          · rename_i e
            rw [← e, h3] at hidle
            cases hidle
          · exact h3
        · refine .inr (.inr ⟨h1, h2, fun n => ?_⟩)
          split
          · exact fun h => h.elim (fun h => absurd h (hnew n).1) (fun h => absurd h (hnew n).2)
          · exact h3 n
    · cases hs
  | run t =>
    simp only [storeStep] at hs
    cases htd : s.todo t with
    | nil => simp [htd] at hs
    | cons m rest =>
      simp only [htd, Option.some.injEq] at hs
      have hp := hS.todo t
      rw [htd] at hp
      -- a step that is not one of opening this store
      have other : ∀ (s1 : StoreState) (rest1 : List StoreMicro), microStep stores s m rest = (s1, rest1) → ¬ OpensK k m →
          s1.fifo k = s.fifo k → fifoNumbers k s1.opened = fifoNumbers k s.opened → (∀ x ∈ rest1, ¬ OpensK k x) → FifoInv o k f0 s' := by
        intro s1 rest1 e hm hf hn hr
        have ht : s1.todo = s.todo := by
          have := micro_todo (stores := stores) s m rest
          rw [e] at this
          exact this
        rw [e] at hs
        rw [← hs]
        have hr' : ∀ n, StoreMicro.channel k n ∉ rest1 ∧ StoreMicro.clearFifo k n ∉ rest1 := fun n => ⟨fun h => hr _ h rfl, fun h => hr _ h rfl⟩
        refine ⟨?_, ?_⟩
        · intro u x hx ho
          simp only at hx
          split at hx
          · exact absurd ho (hr x hx)
          · rw [ht] at hx
            exact hI.owned u x hx ho
        · simp only [hf, hn, ht]
          rcases hI.phase with ⟨h1, h2, h3⟩ | ⟨h1, h2, h3⟩ | ⟨h1, h2, h3⟩
          · refine .inl ⟨h1, h2, fun n => ?_⟩
            split
            · exact ⟨(hr' n).1, fun h => absurd h (hr' n).2⟩
            · exact h3 n
          · refine .inr (.inl ⟨h1, h2, ?_⟩)
            split
            · rename_i e
              rw [← e, h3] at htd
              cases htd
              exact absurd rfl hm
            · exact h3
          · refine .inr (.inr ⟨h1, h2, fun n => ?_⟩)
            split
            · exact fun h => h.elim (fun h => absurd h (hr' n).1) (fun h => absurd h (hr' n).2)
            · exact h3 n
      cases hp with
      | use j hj => exact other _ _ rfl (fun h => h) rfl rfl (by simp)
      | check j h1 h2 h3 =>
        have : ∃ r, microStep stores s (.check j) [.use j] = (s, r) ∧ ∀ x ∈ r, ¬ OpensK k x := by
          simp only [microStep]
          split <;> refine ⟨_, rfl, ?_⟩ <;> split <;> simp [OpensK]
        obtain ⟨r, e, hr⟩ := this
        exact other s r e (fun h => h) rfl rfl hr
      | fill j hj => exact other _ _ rfl (fun h => h) rfl rfl (by simp [OpensK])
      | python j hj => exact other _ _ rfl (fun h => h) rfl rfl (by simp [OpensK])
      | get j =>
        by_cases hjk : j = k
        · subst hjk
          have hto : t = o := hI.owned t (.getFifo j) (by rw [htd]; exact List.mem_cons_self) rfl
          subst hto
          rw [← hs]
          simp only [microStep]
          refine ⟨?_, ?_⟩
          · intro u x hx ho
            simp only at hx
            split at hx
            · assumption
            · exact hI.owned u x hx ho
          · simp only [if_pos]
            rcases hI.phase with ⟨h1, h2, h3⟩ | ⟨h1, h2, h3⟩ | ⟨h1, h2, h3⟩
            · refine .inl ⟨h1, h2, fun n => ⟨by simp, ?_⟩⟩
              intro h
              simp only [List.mem_singleton, StoreMicro.clearFifo.injEq, true_and] at h
              rw [h, h2]
            · rw [h3] at htd
              cases htd
            · refine .inr (.inr ⟨h1, h2, fun n => ?_⟩)
              simp only [List.mem_singleton, reduceCtorEq, StoreMicro.clearFifo.injEq, true_and, false_or]
              intro h
              rw [h, h2]
        · exact other s _ rfl (fun h => hjk h) rfl rfl (by simp only [List.mem_singleton, forall_eq]; exact fun h => hjk h)
      | clear j n =>
        by_cases hjk : j = k
        · subst hjk
          have hto : t = o := hI.owned t (.clearFifo j n) (by rw [htd]; exact List.mem_cons_self) rfl
          subst hto
          rw [← hs]
          simp only [microStep]
          refine ⟨?_, ?_⟩
          · intro u x hx ho
            simp only at hx
            split at hx
            · assumption
            · exact hI.owned u x hx ho
          · simp only [if_pos]
            rcases hI.phase with ⟨h1, h2, h3⟩ | ⟨h1, h2, h3⟩ | ⟨h1, h2, h3⟩
            · have := (h3 n).2 (by rw [htd]; exact List.mem_cons_self)
              subst this
              exact .inr (.inl ⟨h1, trivial, rfl⟩)
            · rw [h3] at htd
              cases htd
            · have := h3 n (.inr (by rw [htd]; exact List.mem_cons_self))
              subst this
              refine .inr (.inr ⟨h1, trivial, fun n' => ?_⟩)
              simp only [List.mem_singleton, reduceCtorEq, StoreMicro.channel.injEq, true_and, or_false]
              exact fun h => h
        · refine other { s with fifo := fun i => if i = j then none else s.fifo i } _ rfl (fun h => hjk h) ?_ rfl
            (by simp only [List.mem_singleton, forall_eq]; exact fun h => hjk h)
          simp [Ne.symm hjk]
      | channel j n =>
        by_cases hjk : j = k
        · subst hjk
          have hto : t = o := hI.owned t (.channel j n) (by rw [htd]; exact List.mem_cons_self) rfl
          subst hto
          rw [← hs]
          simp only [microStep, hk]
          refine ⟨?_, ?_⟩
          · intro u x hx ho
            simp only at hx
            split at hx
            · cases hx
            · exact hI.owned u x hx ho
          · simp only [if_pos, fifoNumbers_append]
            rcases hI.phase with ⟨h1, h2, h3⟩ | ⟨h1, h2, h3⟩ | ⟨⟨c, h1⟩, h2, h3⟩
            · exact absurd (by rw [htd]; exact List.mem_cons_self) (h3 n).1
            · rw [h3] at htd
              cases htd
              exact .inr (.inr ⟨⟨0, by simp [h1]⟩, h2, by simp⟩)
            · have := h3 n (.inl (by rw [htd]; exact List.mem_cons_self))
              subst this
              exact .inr (.inr ⟨⟨c + 1, by simp [h1, List.replicate_succ']⟩, h2, by simp⟩)
        · cases hst : stores j with
          | pipe q d =>
            refine other { s with table := if s.table.contains q then s.table else q :: s.table, opened := s.opened ++ [(j, n)] } []
              (by simp only [microStep, hst]) (fun h => hjk h) rfl ?_ (by simp)
            simp [fifoNumbers_append, hjk]
          | _ => exact other s [] (by simp only [microStep, hst]) (fun h => hjk h) rfl rfl (by simp)

theorem fifo_run {o k : Nat} {f0 : Option Nat} {p : Bytes} {c : Compression} (hk : stores k = .pipe p c) (as : List StoreAct) :
    ∀ (s s' : StoreState), SharedInv stores s → FifoInv o k f0 s → (∀ t, .call t (.openRead k) ∈ as → t = o) →
      storeRun stores info s as = some s' → FifoInv o k f0 s' := by
  induction as with
  | nil =>
    intro s s' _ hI _ h
    cases h
    exact hI
  | cons a as ih =>
    intro s s' hS hI hc h
    simp only [storeRun] at h
    cases h1 : storeStep stores info s a with
    | none => simp [h1] at h
    | some s1 =>
      simp only [h1, Option.bind_some] at h
      exact ih s1 s' (shared_step s s1 a hS h1) (fifo_step hk s s1 a hS hI (fun t e => hc t (by rw [e]; exact List.mem_cons_self)) h1)
        (fun t hm => hc t (List.mem_cons_of_mem _ hm)) h

end Mlio
