import Verif.Spec.RefCount

namespace Mlio
open Spec

/-! ## Counting -/

theorem sum_set {α : Type} (f : α → Nat) : ∀ (l : List α) (i : Nat) (a b : α), l[i]? = some a →
    ((l.set i b).map f).sum + f a = (l.map f).sum + f b
  | [], _, _, _, h => by simp at h
  | x :: l, 0, a, b, h => by
    simp only [List.getElem?_cons_zero, Option.some.injEq] at h
    subst h
    simp only [List.set_cons_zero, List.map_cons, List.sum_cons]
    omega
  | x :: l, i + 1, a, b, h => by
    simp only [List.getElem?_cons_succ] at h
    have := sum_set f l i a b h
    simp only [List.set_cons_succ, List.map_cons, List.sum_cons]
    omega

theorem le_sum_of_mem : ∀ {l : List Nat} {a : Nat}, a ∈ l → a ≤ l.sum
  | x :: l, a, h => by
    simp only [List.mem_cons] at h
    simp only [List.sum_cons]
    rcases h with rfl | h
    · omega
    · have := le_sum_of_mem h; omega

/-- One if the condition holds. -/
def ind (p : Prop) [Decidable p] : Nat := if p then 1 else 0

theorem count_set {α : Type} [BEq α] [LawfulBEq α] [DecidableEq α] : ∀ (l : List α) (i : Nat) (a b c : α), l[i]? = some a →
    (l.set i b).count c + ind (a = c) = l.count c + ind (b = c)
  | [], _, _, _, _, h => by simp at h
  | x :: l, 0, a, b, c, h => by
    simp only [List.getElem?_cons_zero, Option.some.injEq] at h
    subst h
    simp only [List.set_cons_zero, List.count_cons, beq_iff_eq, ind]
    split <;> split <;> omega
  | x :: l, i + 1, a, b, c, h => by
    simp only [List.getElem?_cons_succ] at h
    have := count_set l i a b c h
    simp only [List.set_cons_succ, List.count_cons]
    omega

/-- Handles among the members of an object. -/
def objRefs (o : Nat) (ob : RcObj) : Nat := if ob.alive then ob.fields.count (some o) else 0

/-- Handles that point to an object. -/
def refs (s : RcState) (o : Nat) : Nat := s.vars.count (some o) + (s.objs.map (objRefs o)).sum

/-- Handles that are about to be destructed. -/
def pend (s : RcState) (o : Nat) : Nat := (s.threads.map fun th => th.todo.count (.dec o)).sum

/-- The counter of an object. -/
def cntOf (s : RcState) (o : Nat) : Nat :=
  match s.objs[o]? with
  | some ob => if ob.alive then ob.count else 0
  | none => 0

/-- The counters are right. -/
def Counts (s : RcState) : Prop := ∀ o, cntOf s o = refs s o + pend s o

/-- Objects that are not deleted have a positive counter. -/
def Pos (s : RcState) : Prop := ∀ (o : Nat) (ob : RcObj), s.objs[o]? = some ob → ob.alive = true → 0 < ob.count

/-! ## Places -/

/-- The handle is there as long as the thread is in its operation. -/
def Anch (s : RcState) (reads : List RcLoc) : RcLoc → Prop
  | .var i => i < s.vars.length
  | .fld o j => (∃ v, RcLoc.var v ∈ reads ∧ s.get (.var v) = some o) ∧
      ∃ ob, s.objs[o]? = some ob ∧ j < ob.fields.length

theorem get_var (s : RcState) (v o : Nat) (h : s.get (.var v) = some o) : s.vars[v]? = some (some o) := by
  simp only [RcState.get] at h
  rcases hv : s.vars[v]? with _ | x
  · rw [hv] at h; simp at h
  · rw [hv] at h; simp at h; rw [h]

theorem refs_of_var (s : RcState) (v o : Nat) (h : s.get (.var v) = some o) : 0 < refs s o := by
  have hm := List.mem_of_getElem? (get_var s v o h)
  have := List.count_pos_iff.2 hm
  unfold refs
  omega

theorem alive_of_cnt (s : RcState) (o : Nat) (h : 0 < cntOf s o) : ∃ ob, s.objs[o]? = some ob ∧ ob.alive = true := by
  unfold cntOf at h
  split at h
  · rename_i ob hob
    split at h
    · rename_i ha; exact ⟨ob, hob, ha⟩
    · omega
  · omega

theorem anch_valid (s : RcState) (reads : List RcLoc) (l : RcLoc) (hc : Counts s) (h : Anch s reads l) :
    s.valid l = true := by
  cases l with
  | var i => simpa [RcState.valid, Anch] using h
  | fld o j =>
    obtain ⟨⟨v, _, hv⟩, ob, hob, hj⟩ := h
    have := refs_of_var s v o hv
    have h1 := hc o
    obtain ⟨ob', hob', ha⟩ := alive_of_cnt s o (by omega)
    rw [hob] at hob'
    simp only [Option.some.injEq] at hob'
    subst hob'
    simp [RcState.valid, hob, ha, hj]

theorem refs_of_loc (s : RcState) (l : RcLoc) (o : Nat) (hv : s.valid l = true) (h : s.get l = some o) : 0 < refs s o := by
  cases l with
  | var i => exact refs_of_var s i o h
  | fld p j =>
    simp only [RcState.get] at h
    simp only [RcState.valid] at hv
    rcases hob : s.objs[p]? with _ | ob
    · rw [hob] at h; simp at h
    · rw [hob] at h hv
      simp only [Option.bind_some] at h
      simp only [Bool.and_eq_true, decide_eq_true_eq] at hv
      have hf : ob.fields[j]? = some (some o) := by
        rcases hv' : ob.fields[j]? with _ | x
        · rw [hv'] at h; simp at h
        · rw [hv'] at h; simp at h; rw [h]
      have hm := List.count_pos_iff.2 (List.mem_of_getElem? hf)
      have hs : objRefs o ob ≤ (s.objs.map (objRefs o)).sum := by
        have hmem : objRefs o ob ∈ s.objs.map (objRefs o) := List.mem_map.2 ⟨ob, List.mem_of_getElem? hob, rfl⟩
        exact le_sum_of_mem hmem
      have he : objRefs o ob = ob.fields.count (some o) := by simp [objRefs, hv.1]
      rw [he] at hs
      unfold refs
      omega

/-- The handles keep their number and place. -/
def SameShape (s s' : RcState) : Prop :=
  s'.vars.length = s.vars.length ∧
  ∀ (o : Nat) (ob : RcObj), s.objs[o]? = some ob → ∃ ob' : RcObj, s'.objs[o]? = some ob' ∧ ob'.fields.length = ob.fields.length

theorem SameShape.refl (s : RcState) : SameShape s s := ⟨rfl, fun _ ob h => ⟨ob, h, rfl⟩⟩

theorem SameShape.trans {a b c : RcState} (h1 : SameShape a b) (h2 : SameShape b c) : SameShape a c := by
  refine ⟨h2.1.trans h1.1, fun o ob h => ?_⟩
  obtain ⟨ob', h', e1⟩ := h1.2 o ob h
  obtain ⟨ob'', h'', e2⟩ := h2.2 o ob' h'
  exact ⟨ob'', h'', e2.trans e1⟩

theorem Anch.mono {s s' : RcState} {reads : List RcLoc} (hs : SameShape s s')
    (hr : ∀ l ∈ reads, s'.get l = s.get l) {l : RcLoc} (h : Anch s reads l) : Anch s' reads l := by
  cases l with
  | var i => simp only [Anch] at h ⊢; rw [hs.1]; exact h
  | fld o j =>
    obtain ⟨⟨v, hv, hg⟩, ob, hob, hj⟩ := h
    obtain ⟨ob', hob', e⟩ := hs.2 o ob hob
    exact ⟨⟨v, hv, by rw [hr _ hv]; exact hg⟩, ob', hob', by omega⟩

/-! ## Storing -/

theorem put_get (s : RcState) (l l' : RcLoc) (p : Option Nat) (hv : s.valid l = true) :
    (s.put l p).get l' = if l' = l then p else s.get l' := by
  cases l with
  | var i =>
    have hi : i < s.vars.length := by simpa [RcState.valid] using hv
    cases l' with
    | var k =>
      simp only [RcState.put, RcState.get, RcLoc.var.injEq]
      rw [List.getElem?_set]
      by_cases hk : i = k
      · subst hk; simp [hi]
      · rw [if_neg hk, if_neg (fun e => hk e.symm)]
    | fld o j => simp [RcState.put, RcState.get]
  | fld o j =>
    simp only [RcState.valid] at hv
    rcases hob : s.objs[o]? with _ | ob
    · rw [hob] at hv; simp at hv
    · rw [hob] at hv
      simp only [Bool.and_eq_true, decide_eq_true_eq] at hv
      have ho : o < s.objs.length := (List.getElem?_eq_some_iff.1 hob).1
      cases l' with
      | var k => simp [RcState.put, RcState.get, hob]
      | fld o' j' =>
        simp only [RcState.put, RcState.get, hob, RcLoc.fld.injEq]
        rw [List.getElem?_set]
        by_cases hk : o = o'
        · subst hk
          simp only [if_true, ho, Option.bind_some, true_and, hob]
          rw [List.getElem?_set]
          by_cases hj : j = j'
          · subst hj; simp [hv.2]
          · rw [if_neg hj, if_neg (fun e => hj e.symm)]
        · rw [if_neg hk, if_neg (fun e => hk e.1.symm)]

theorem put_threads (s : RcState) (l : RcLoc) (p : Option Nat) : (s.put l p).threads = s.threads := by
  cases l with
  | var i => rfl
  | fld o j => simp only [RcState.put]; split <;> rfl

theorem put_pend (s : RcState) (l : RcLoc) (p : Option Nat) (o : Nat) : pend (s.put l p) o = pend s o := by
  simp only [pend, put_threads]

theorem put_cnt (s : RcState) (l : RcLoc) (p : Option Nat) (o : Nat) : cntOf (s.put l p) o = cntOf s o := by
  cases l with
  | var i => rfl
  | fld o' j =>
    simp only [RcState.put]
    split
    · rename_i ob hob
      simp only [cntOf]
      rw [List.getElem?_set]
      by_cases h : o' = o
      · subst h
        have := (List.getElem?_eq_some_iff.1 hob).1
        rw [if_pos rfl, if_pos this, hob]
      · rw [if_neg h]
    · rfl

theorem put_pos (s : RcState) (l : RcLoc) (p : Option Nat) (h : Pos s) : Pos (s.put l p) := by
  cases l with
  | var i => exact h
  | fld o' j =>
    simp only [RcState.put]
    split
    · rename_i ob hob
      intro o ob' hob' ha
      simp only at hob'
      rw [List.getElem?_set] at hob'
      split at hob'
      · split at hob'
        · simp only [Option.some.injEq] at hob'
          subst hob'
          exact h o' ob hob ha
        · cases hob'
      · exact h o ob' hob' ha
    · exact h

theorem put_valid (s : RcState) (l k : RcLoc) (p : Option Nat) : (s.put l p).valid k = s.valid k := by
  cases l with
  | var i => cases k <;> simp [RcState.put, RcState.valid]
  | fld o' j =>
    simp only [RcState.put]
    split
    · rename_i ob hob
      cases k with
      | var i => rfl
      | fld o j' =>
        simp only [RcState.valid]
        rw [List.getElem?_set]
        by_cases h : o' = o
        · subst h
          have := (List.getElem?_eq_some_iff.1 hob).1
          rw [if_pos rfl, if_pos this, hob]
          simp
        · rw [if_neg h]
    · rfl

theorem put_shape (s : RcState) (l : RcLoc) (p : Option Nat) : SameShape s (s.put l p) := by
  cases l with
  | var i => exact ⟨by simp [RcState.put], fun o ob h => ⟨ob, h, rfl⟩⟩
  | fld o' j =>
    simp only [RcState.put]
    split
    · rename_i ob hob
      refine ⟨rfl, fun o ob1 h1 => ?_⟩
      simp only
      rw [List.getElem?_set]
      by_cases h : o' = o
      · subst h
        have := (List.getElem?_eq_some_iff.1 hob).1
        rw [h1] at hob
        simp only [Option.some.injEq] at hob
        subst hob
        exact ⟨_, by simp [this]; rfl, by simp⟩
      · rw [if_neg h]; exact ⟨ob1, h1, rfl⟩
    · exact SameShape.refl s

theorem put_refs (s : RcState) (l : RcLoc) (p : Option Nat) (hv : s.valid l = true) (o : Nat) :
    refs (s.put l p) o + ind (s.get l = some o) = refs s o + ind (p = some o) := by
  cases l with
  | var i =>
    have hi : i < s.vars.length := by simpa [RcState.valid] using hv
    obtain ⟨a, ha⟩ : ∃ a, s.vars[i]? = some a := ⟨_, List.getElem?_eq_getElem hi⟩
    have := count_set s.vars i a p (some o) ha
    have hg : s.get (.var i) = a := by simp [RcState.get, ha]
    rw [hg]
    simp only [refs, RcState.put]
    omega
  | fld o' j =>
    simp only [RcState.valid] at hv
    rcases hob : s.objs[o']? with _ | ob
    · rw [hob] at hv; simp at hv
    · rw [hob] at hv
      simp only [Bool.and_eq_true, decide_eq_true_eq] at hv
      obtain ⟨a, ha⟩ : ∃ a, ob.fields[j]? = some a := ⟨_, List.getElem?_eq_getElem hv.2⟩
      have h1 := count_set ob.fields j a p (some o) ha
      have hg : s.get (.fld o' j) = a := by simp [RcState.get, hob, ha]
      rw [hg]
      have h2 := sum_set (objRefs o) s.objs o' ob { ob with fields := ob.fields.set j p } hob
      have e1 : objRefs o ob = ob.fields.count (some o) := by simp [objRefs, hv.1]
      have e2 : objRefs o { ob with fields := ob.fields.set j p } = (ob.fields.set j p).count (some o) := by
        simp [objRefs, hv.1]
      simp only [refs, RcState.put, hob]
      omega

/-! ## What threads have left to do -/

theorem setTodo_eq (s : RcState) (t : Nat) (th : RcThread) (todo : List RcMicro) (h : s.threads[t]? = some th) :
    s.setTodo t todo = ⟨s.vars, s.objs, s.threads.set t { th with todo := todo }⟩ := by
  simp only [RcState.setTodo, h]

theorem pend_set (s : RcState) (vars : List (Option Nat)) (objs : List RcObj) (t : Nat) (th : RcThread)
    (todo : List RcMicro) (h : s.threads[t]? = some th) (o : Nat) :
    pend ⟨vars, objs, s.threads.set t { th with todo := todo }⟩ o + th.todo.count (.dec o) =
      pend s o + todo.count (.dec o) := by
  simp only [pend]
  exact sum_set (fun th : RcThread => th.todo.count (.dec o)) s.threads t th _ h

theorem fieldDrops_count (fs : List (Option Nat)) (o : Nat) : (fieldDrops fs).count (.dec o) = fs.count (some o) := by
  induction fs with
  | nil => rfl
  | cons p fs ih =>
    unfold fieldDrops at ih ⊢
    cases p with
    | none => simp [ih]
    | some q =>
      simp only [List.filterMap_cons, Option.map_some, List.count_cons, ih]
      by_cases h : q = o
      · subst h; simp
      · simp [h]

theorem fieldDrops_decs (fs : List (Option Nat)) : ∃ ds : List Nat, fieldDrops fs = ds.map .dec := by
  induction fs with
  | nil => exact ⟨[], rfl⟩
  | cons p fs ih =>
    obtain ⟨ds, e⟩ := ih
    unfold fieldDrops at e ⊢
    cases p with
    | none => exact ⟨ds, by simp [e]⟩
    | some q => exact ⟨q :: ds, by simp [e]⟩

/-- Taking back a reference that is counted but not there any more. -/
theorem decObj_ok (s : RcState) (t : Nat) (th : RcThread) (rest : List RcMicro) (o : Nat)
    (ht : s.threads[t]? = some th)
    (hc : ∀ o', cntOf s o' + th.todo.count (.dec o') = refs s o' + pend s o' + rest.count (.dec o') + ind (o' = o))
    (hle : ∀ o', th.todo.count (.dec o') ≤ pend s o')
    (hp : Pos s) :
    ∃ s' ds, s.decObj t rest o = .ok s' ∧ Counts s' ∧ Pos s' ∧ SameShape s s' ∧
      (∀ l, s'.get l = s.get l) ∧ s'.threads = s.threads.set t { th with todo := List.map RcMicro.dec ds ++ rest } := by
  have h0 := hc o
  simp only [ind, if_true] at h0
  have hlo := hle o
  obtain ⟨ob, hob, ha⟩ := alive_of_cnt s o (by omega)
  have hcnt : cntOf s o = ob.count := by simp [cntOf, hob, ha]
  have ho : o < s.objs.length := (List.getElem?_eq_some_iff.1 hob).1
  have hget : ∀ (c : Nat) (b : Bool) (ths : List RcThread) (l : RcLoc),
      (⟨s.vars, s.objs.set o { ob with alive := b, count := c }, ths⟩ : RcState).get l = s.get l := by
    intro c b ths l
    cases l with
    | var i => rfl
    | fld o' j =>
      simp only [RcState.get]
      rw [List.getElem?_set]
      by_cases h : o = o'
      · subst h; rw [if_pos rfl, if_pos ho, hob]; rfl
      · rw [if_neg h]
  have hshape : ∀ (c : Nat) (b : Bool) (ths : List RcThread),
      SameShape s ⟨s.vars, s.objs.set o { ob with alive := b, count := c }, ths⟩ := by
    intro c b ths
    refine ⟨rfl, fun o' ob' h' => ?_⟩
    simp only
    rw [List.getElem?_set]
    by_cases h : o = o'
    · subst h
      rw [hob] at h'
      simp only [Option.some.injEq] at h'
      subst h'
      exact ⟨{ ob with alive := b, count := c }, by rw [if_pos rfl, if_pos ho], rfl⟩
    · rw [if_neg h]; exact ⟨ob', h', rfl⟩
  have hposn : ∀ (c : Nat) (b : Bool) (ths : List RcThread), (b = true → 0 < c) →
      Pos ⟨s.vars, s.objs.set o { ob with alive := b, count := c }, ths⟩ := by
    intro c b ths hbc o' ob' h' ha'
    simp only at h'
    rw [List.getElem?_set] at h'
    by_cases h : o = o'
    · rw [if_pos h, if_pos ho] at h'
      simp only [Option.some.injEq] at h'
      subst h'
      exact hbc ha'
    · rw [if_neg h] at h'
      exact hp o' ob' h' ha'
  have hcnt' : ∀ (c : Nat) (b : Bool) (ths : List RcThread) (o' : Nat),
      cntOf ⟨s.vars, s.objs.set o { ob with alive := b, count := c }, ths⟩ o' =
        if o' = o then (if b then c else 0) else cntOf s o' := by
    intro c b ths o'
    simp only [cntOf]
    rw [List.getElem?_set]
    by_cases h : o = o'
    · subst h; simp [ho]
    · rw [if_neg h, if_neg (fun e => h e.symm)]
  have hsum : ∀ (c : Nat) (b : Bool) (o' : Nat), ((s.objs.set o { ob with alive := b, count := c }).map (objRefs o')).sum +
      ob.fields.count (some o') = (s.objs.map (objRefs o')).sum + if b then ob.fields.count (some o') else 0 := by
    intro c b o'
    have := sum_set (objRefs o') s.objs o ob { ob with alive := b, count := c } hob
    have e1 : objRefs o' ob = ob.fields.count (some o') := by simp [objRefs, ha]
    have e2 : objRefs o' { ob with alive := b, count := c } = if b then ob.fields.count (some o') else 0 := rfl
    omega
  simp only [RcState.decObj, hob, ha, Bool.not_true, Bool.false_eq_true, if_false]
  by_cases h1 : ob.count = 1
  · rw [if_pos h1]
    obtain ⟨ds, hds⟩ := fieldDrops_decs ob.fields
    rw [setTodo_eq _ _ th _ (by exact ht)]
    refine ⟨_, ds, rfl, ?_, hposn 0 false _ (by decide), hshape 0 false _, hget 0 false _, by rw [hds]⟩
    intro o'
    have hpd := pend_set s s.vars (s.objs.set o { ob with alive := false, count := 0 }) t th
      (fieldDrops ob.fields ++ rest) ht o'
    rw [List.count_append, fieldDrops_count] at hpd
    have hs := hsum 0 false o'
    simp only [Bool.false_eq_true, if_false] at hs
    have hco := hc o'
    have hl := hle o'
    simp only [refs] at hco h0 ⊢
    rw [hcnt' 0 false]
    by_cases h : o' = o
    · subst h
      simp only [ind, if_true, Bool.false_eq_true, if_false] at hco ⊢
      omega
    · rw [if_neg h]
      simp only [ind, if_neg h] at hco
      omega
  · rw [if_neg h1]
    rw [setTodo_eq _ _ th _ (by exact ht)]
    have hpb := hp o ob hob ha
    refine ⟨_, [], rfl, ?_, hposn (ob.count - 1) true _ (by omega), hshape _ true _, hget _ true _, rfl⟩
    intro o'
    have hpd := pend_set s s.vars (s.objs.set o { ob with alive := true, count := ob.count - 1 }) t th rest ht o'
    have hs := hsum (ob.count - 1) true o'
    simp only [if_true] at hs
    have hco := hc o'
    have hl := hle o'
    simp only [refs] at hco ⊢
    rw [hcnt' _ true]
    by_cases h : o' = o
    · subst h
      simp only [ind, if_true] at hco ⊢
      omega
    · rw [if_neg h]
      simp only [ind, if_neg h] at hco
      omega

/-! ## The invariant -/

/-- A handle that the operation writes. -/
def LocOk (s : RcState) (th : RcThread) (l : RcLoc) : Prop := l ∈ th.writes ∧ Anch s th.reads l

/-- A handle that the operation reads keeps the object. -/
def SrcOk (s : RcState) (th : RcThread) (q : Nat) : Prop := ∃ src ∈ th.reads, s.get src = some q ∧ Anch s th.reads src

/-- What is left of an operation after the work of destructors. -/
def TailOk (s : RcState) (th : RcThread) : List RcMicro → Prop
  | [] => True
  | [.drop l] => LocOk s th l
  | [.drop l, .acquire l' q] => l' = l ∧ LocOk s th l ∧ SrcOk s th q
  | [.acquire l q] => LocOk s th l ∧ s.get l = none ∧ SrcOk s th q
  | [.drop l, .transfer l' src p] => l' = l ∧ LocOk s th l ∧ LocOk s th src ∧ l ≠ src ∧ s.get src = p
  | [.transfer l src p] => LocOk s th l ∧ s.get l = none ∧ LocOk s th src ∧ l ≠ src ∧ s.get src = p
  | _ => False

/-- The state of a thread. -/
def ThreadOk (s : RcState) (th : RcThread) : Prop :=
  th.todo ≠ [] → (∀ l ∈ th.writes, l ∉ th.reads) ∧
    ∃ (ds : List Nat) (tail : List RcMicro), th.todo = ds.map .dec ++ tail ∧ TailOk s th tail

/-- What holds in all states of a careful schedule. -/
structure RcInv (s : RcState) : Prop where
  counts : Counts s
  pos : Pos s
  threads : ∀ (t : Nat) (th : RcThread), s.threads[t]? = some th → ThreadOk s th
  locks : ∀ (t u : Nat) (a b : RcThread), s.threads[t]? = some a → s.threads[u]? = some b → t ≠ u → a.todo ≠ [] →
    b.todo ≠ [] → ∀ l ∈ a.writes, l ∉ b.reads ∧ l ∉ b.writes

theorem rcInv_init (n k : Nat) : RcInv (rcInit n k) := by
  constructor
  · intro o
    have h1 : (List.replicate n (none : Option Nat)).count (some o) = 0 := by
      rw [List.count_eq_zero]; simp
    have h2 : ∀ k, (List.map (fun th : RcThread => th.todo.count (RcMicro.dec o)) (List.replicate k ⟨[], [], []⟩)).sum = 0 := by
      intro k; induction k with
      | zero => rfl
      | succ k ih => simp only [List.replicate_succ, List.map_cons, List.sum_cons, ih]; rfl
    simp [cntOf, rcInit, refs, pend, h1, h2]
  · intro o ob h; simp [rcInit] at h
  · intro t th h hne
    have := List.mem_of_getElem? h
    simp only [rcInit, List.mem_replicate] at this
    rw [this.2] at hne
    exact absurd rfl hne
  · intro t u a b ha _ _ hne
    have := List.mem_of_getElem? ha
    simp only [rcInit, List.mem_replicate] at this
    rw [this.2] at hne
    exact absurd rfl hne

theorem LocOk.mono {s s' : RcState} {th : RcThread} {l : RcLoc} (hs : SameShape s s')
    (hr : ∀ l ∈ th.reads, s'.get l = s.get l) (h : LocOk s th l) : LocOk s' th l := ⟨h.1, h.2.mono hs hr⟩

theorem SrcOk.mono {s s' : RcState} {th : RcThread} {q : Nat} (hs : SameShape s s')
    (hr : ∀ l ∈ th.reads, s'.get l = s.get l) (h : SrcOk s th q) : SrcOk s' th q := by
  obtain ⟨src, h1, h2, h3⟩ := h
  exact ⟨src, h1, by rw [hr _ h1]; exact h2, h3.mono hs hr⟩

theorem TailOk.mono {s s' : RcState} {th : RcThread} {tail : List RcMicro} (hs : SameShape s s')
    (hr : ∀ l ∈ th.reads, s'.get l = s.get l) (hw : ∀ l ∈ th.writes, s'.get l = s.get l) (h : TailOk s th tail) :
    TailOk s' th tail := by
  unfold TailOk at h
  split at h
  · trivial
  · exact LocOk.mono hs hr h
  · exact ⟨h.1, h.2.1.mono hs hr, h.2.2.mono hs hr⟩
  · exact ⟨h.1.mono hs hr, by rw [hw _ h.1.1]; exact h.2.1, h.2.2.mono hs hr⟩
  · exact ⟨h.1, h.2.1.mono hs hr, h.2.2.1.mono hs hr, h.2.2.2.1, by rw [hw _ h.2.2.1.1]; exact h.2.2.2.2⟩
  · exact ⟨h.1.mono hs hr, by rw [hw _ h.1.1]; exact h.2.1, h.2.2.1.mono hs hr, h.2.2.2.1,
      by rw [hw _ h.2.2.1.1]; exact h.2.2.2.2⟩
  · exact absurd h id

/-- The reads and writes of a thread do not change. -/
theorem TailOk.congr {s : RcState} {th th' : RcThread} {tail : List RcMicro} (hr : th'.reads = th.reads)
    (hw : th'.writes = th.writes) (h : TailOk s th tail) : TailOk s th' tail := by
  unfold TailOk at h ⊢
  unfold LocOk SrcOk at *
  rw [hr, hw]
  exact h

theorem ThreadOk.mono {s s' : RcState} {th : RcThread} (hs : SameShape s s')
    (hr : th.todo ≠ [] → ∀ l ∈ th.reads, s'.get l = s.get l) (hw : th.todo ≠ [] → ∀ l ∈ th.writes, s'.get l = s.get l)
    (h : ThreadOk s th) : ThreadOk s' th := by
  intro hne
  obtain ⟨h1, ds, tail, h2, h3⟩ := h hne
  exact ⟨h1, ds, tail, h2, h3.mono hs (hr hne) (hw hne)⟩

theorem count_le_pend (s : RcState) (t : Nat) (th : RcThread) (h : s.threads[t]? = some th) (o : Nat) :
    th.todo.count (.dec o) ≤ pend s o := by
  unfold pend
  exact le_sum_of_mem (List.mem_map.2 ⟨th, List.mem_of_getElem? h, rfl⟩)

/-- A step of a thread keeps the invariant if it writes handles of its own only, and counts well. -/
theorem rcInv_thread (s s' : RcState) (h : RcInv s) (t : Nat) (th : RcThread) (ht : s.threads[t]? = some th)
    (hne : th.todo ≠ []) (todo' : List RcMicro)
    (hthreads : s'.threads = s.threads.set t { th with todo := todo' })
    (hc : Counts s') (hp : Pos s') (hs : SameShape s s')
    (hg : ∀ l, l ∉ th.writes → s'.get l = s.get l)
    (hok : ThreadOk s' { th with todo := todo' }) : RcInv s' := by
  have cases' : ∀ (u : Nat) (b : RcThread), s'.threads[u]? = some b →
      (u = t ∧ b = { th with todo := todo' }) ∨ (u ≠ t ∧ s.threads[u]? = some b) := by
    intro u b hb
    rw [hthreads, List.getElem?_set] at hb
    split at hb
    · split at hb
      · simp only [Option.some.injEq] at hb
        exact Or.inl ⟨by omega, hb.symm⟩
      · cases hb
    · exact Or.inr ⟨by omega, hb⟩
  refine ⟨hc, hp, ?_, ?_⟩
  · intro u b hb
    rcases cases' u b hb with ⟨_, rfl⟩ | ⟨hu, hb'⟩
    · exact hok
    · refine (h.threads u b hb').mono hs ?_ ?_
      · intro hbn l hl
        exact hg l (fun hw => (h.locks t u th b ht hb' (fun e => hu e.symm) hne hbn l hw).1 hl)
      · intro hbn l hl
        exact hg l (fun hw => (h.locks t u th b ht hb' (fun e => hu e.symm) hne hbn l hw).2 hl)
  · intro u w a b ha hb huw hane hbne l hl
    rcases cases' u a ha with ⟨rfl, rfl⟩ | ⟨hu, ha'⟩ <;> rcases cases' w b hb with ⟨rfl, rfl⟩ | ⟨hw, hb'⟩
    · exact absurd rfl huw
    · exact h.locks u w th b ht hb' huw hne hbne l hl
    · exact h.locks u w a th ha' ht huw hane hne l hl
    · exact h.locks u w a b ha' hb' huw hane hbne l hl

theorem dec_cons_count (m : RcMicro) (rest : List RcMicro) (o : Nat) :
    (m :: rest).count (.dec o) = rest.count (.dec o) + ind (m = .dec o) := by
  rw [List.count_cons]
  simp only [ind, beq_iff_eq]

/-- Every step of a thread keeps the invariant and is defined. -/
theorem exec_ok (s : RcState) (h : RcInv s) (t : Nat) (th : RcThread) (ht : s.threads[t]? = some th) (m : RcMicro)
    (rest : List RcMicro) (htd : th.todo = m :: rest) : ∃ s', s.exec t rest m = .ok s' ∧ RcInv s' := by
  have hne : th.todo ≠ [] := by rw [htd]; simp
  obtain ⟨hdisj, ds, tail, hsplit, htail⟩ := h.threads t th ht hne
  have hle := count_le_pend s t th ht
  rcases ds with _ | ⟨d, ds⟩
  · simp only [List.map_nil, List.nil_append] at hsplit
    rw [htd] at hsplit
    -- the tail comes first
    have hdrop : ∀ l, LocOk s th l → m = .drop l → (∀ s1 : RcState, SameShape s s1 →
        (∀ k, k ∉ th.writes → s1.get k = s.get k) → (∀ k, k ≠ l → s1.get k = s.get k) → s1.get l = none →
        TailOk s1 th rest) → ∃ s', s.exec t rest m = .ok s' ∧ RcInv s' := by
      rintro l hl rfl hrest
      have hval := anch_valid s th.reads l h.counts hl.2
      simp only [RcState.exec, hval, Bool.not_true, Bool.false_eq_true, if_false]
      have hrc : ∀ o, th.todo.count (.dec o) = rest.count (.dec o) := by
        intro o; rw [htd, dec_cons_count]; simp [ind]
      rcases hgl : s.get l with _ | o
      · simp only
        rw [setTodo_eq s t th rest ht]
        refine ⟨_, rfl, ?_⟩
        have hsh : SameShape s ⟨s.vars, s.objs, s.threads.set t { th with todo := rest }⟩ := ⟨rfl, fun _ ob h => ⟨ob, h, rfl⟩⟩
        have hgg : ∀ k, (⟨s.vars, s.objs, s.threads.set t { th with todo := rest }⟩ : RcState).get k = s.get k := by
          intro k; cases k <;> rfl
        refine rcInv_thread s _ h t th ht hne rest rfl ?_ h.pos hsh (fun k _ => hgg k) ?_
        · intro o
          have hp := pend_set s s.vars s.objs t th rest ht o
          have hco := h.counts o
          have := hrc o
          simp only [cntOf, refs] at hco ⊢
          omega
        · intro _
          refine ⟨hdisj, [], rest, rfl, ?_⟩
          exact TailOk.congr (th := th) rfl rfl (hrest _ hsh (fun k _ => hgg k) (fun k _ => hgg k) (by rw [hgg]; exact hgl))
      · simp only
        have hpt : (s.put l none).threads[t]? = some th := by rw [put_threads]; exact ht
        obtain ⟨s', ds', he, hc', hp', hsh', hg', hth'⟩ := decObj_ok (s.put l none) t th rest o hpt (by
          intro o'
          have h1 := put_refs s l none hval o'
          have h2 := h.counts o'
          have h3 := hrc o'
          rw [put_cnt, put_pend]
          rw [hgl] at h1
          simp only [ind, Option.some.injEq, reduceCtorEq, if_false] at h1 ⊢
          by_cases ho : o = o'
          · subst ho; simp only [if_true] at h1 ⊢; omega
          · rw [if_neg ho] at h1; rw [if_neg (fun e => ho e.symm)]; omega) (by
          intro o'; rw [put_pend]; exact hle o') (put_pos s l none h.pos)
        refine ⟨s', he, ?_⟩
        have hsh := (put_shape s l none).trans hsh'
        have hgk : ∀ k, k ≠ l → s'.get k = s.get k := by
          intro k hk; rw [hg', put_get s l k none hval, if_neg hk]
        have hgn : s'.get l = none := by rw [hg', put_get s l l none hval, if_pos rfl]
        rw [put_threads] at hth'
        have hgw : ∀ k, k ∉ th.writes → s'.get k = s.get k := fun k hk => hgk k (fun e => hk (e ▸ hl.1))
        refine rcInv_thread s s' h t th ht hne _ hth' hc' hp' hsh hgw ?_
        intro _
        exact ⟨hdisj, ds', rest, rfl, TailOk.congr (th := th) rfl rfl (hrest s' hsh hgw hgk hgn)⟩
    subst hsplit
    unfold TailOk at htail
    split at htail
    · rename_i heq; cases heq
    · rename_i l heq
      simp only [List.cons.injEq] at heq
      obtain ⟨rfl, rfl⟩ := heq
      exact hdrop l htail rfl (fun s1 _ _ _ _ => trivial)
    · rename_i l l' q heq
      simp only [List.cons.injEq] at heq
      obtain ⟨rfl, rfl⟩ := heq
      obtain ⟨rfl, hl, hsrc⟩ := htail
      refine hdrop l' hl rfl (fun s1 hsh hgw _ hgn => ?_)
      have hr : ∀ k ∈ th.reads, s1.get k = s.get k := fun k hk => hgw k (fun hw => hdisj k hw hk)
      exact ⟨hl.mono hsh hr, hgn, hsrc.mono hsh hr⟩
    · rename_i l q heq
      simp only [List.cons.injEq] at heq
      obtain ⟨rfl, rfl⟩ := heq
      obtain ⟨hl, hgn, src, hsr, hsg, hsa⟩ := htail
      have hval := anch_valid s th.reads l h.counts hl.2
      have hvs := anch_valid s th.reads src h.counts hsa
      have href := refs_of_loc s src q hvs hsg
      have hcq := h.counts q
      obtain ⟨ob, hob, ha⟩ := alive_of_cnt (s.put l (some q)) q (by rw [put_cnt]; omega)
      have ho : q < (s.put l (some q)).objs.length := (List.getElem?_eq_some_iff.1 hob).1
      simp only [RcState.exec, hval, Bool.not_true, Bool.false_eq_true, if_false, RcState.incObj, hob, ha]
      rw [setTodo_eq _ t th [] (by simp only; rw [put_threads]; exact ht)]
      have hgg : ∀ k, (⟨(s.put l (some q)).vars, (s.put l (some q)).objs.set q { ob with alive := true, count := ob.count + 1 },
          (s.put l (some q)).threads.set t { th with todo := [] }⟩ : RcState).get k = (s.put l (some q)).get k := by
        intro k
        cases k with
        | var i => rfl
        | fld o' j =>
          simp only [RcState.get]
          rw [List.getElem?_set]
          by_cases hk : q = o'
          · subst hk; rw [if_pos rfl, if_pos ho, hob]; rfl
          · rw [if_neg hk]
      refine ⟨_, rfl, rcInv_thread s _ h t th ht hne [] (by simp only; rw [put_threads]) ?_ ?_ ?_ ?_ ?_⟩
      · intro o
        have hpd := pend_set s (s.put l (some q)).vars
          ((s.put l (some q)).objs.set q { ob with alive := true, count := ob.count + 1 }) t th [] ht o
        have hrc : th.todo.count (.dec o) = 0 := by rw [htd, dec_cons_count]; simp [ind]
        simp only [List.count_nil, hrc] at hpd
        have h1 := put_refs s l (some q) hval o
        rw [hgn] at h1
        have h2 := h.counts o
        have h3 := sum_set (objRefs o) (s.put l (some q)).objs q ob { ob with alive := true, count := ob.count + 1 } hob
        have e1 : objRefs o { ob with alive := true, count := ob.count + 1 } = objRefs o ob := by simp [objRefs, ha]
        have h4 := put_cnt s l (some q) o
        have h5 : cntOf ⟨(s.put l (some q)).vars, (s.put l (some q)).objs.set q { ob with alive := true, count := ob.count + 1 },
            s.threads.set t { th with todo := [] }⟩ o = if q = o then ob.count + 1 else cntOf (s.put l (some q)) o := by
          simp only [cntOf]
          rw [List.getElem?_set]
          by_cases hq : q = o
          · subst hq; rw [if_pos rfl, if_pos ho, if_pos rfl]; rfl
          · rw [if_neg hq, if_neg hq]
        rw [show (s.put l (some q)).threads = s.threads from put_threads _ _ _]
        rw [h5]
        simp only [refs] at h1 h2 ⊢
        simp only [ind, reduceCtorEq, if_false, Option.some.injEq] at h1
        by_cases hq : q = o
        · subst hq
          have h6 : cntOf (s.put l (some q)) q = ob.count := by simp only [cntOf, hob, ha, if_true]
          rw [if_pos rfl] at h1 ⊢
          omega
        · rw [if_neg hq] at h1 ⊢
          omega
      · intro o' ob' h' ha'
        simp only at h'
        rw [List.getElem?_set] at h'
        by_cases hk : q = o'
        · rw [if_pos hk, if_pos ho] at h'
          simp only [Option.some.injEq] at h'
          subst h'
          simp
        · rw [if_neg hk] at h'
          exact put_pos s l (some q) h.pos o' ob' h' ha'
      · refine (put_shape s l (some q)).trans ⟨rfl, fun o' ob' h' => ?_⟩
        simp only
        rw [List.getElem?_set]
        by_cases hk : q = o'
        · subst hk
          rw [hob] at h'
          simp only [Option.some.injEq] at h'
          subst h'
          exact ⟨{ ob with alive := true, count := ob.count + 1 }, by rw [if_pos rfl, if_pos ho], rfl⟩
        · rw [if_neg hk]; exact ⟨ob', h', rfl⟩
      · intro k hk
        have hkl : k ≠ l := fun e => hk (e ▸ hl.1)
        rw [hgg, put_get s l k _ hval, if_neg hkl]
      · intro hx; exact absurd rfl hx
    · rename_i l l' src p heq
      simp only [List.cons.injEq] at heq
      obtain ⟨rfl, rfl⟩ := heq
      obtain ⟨rfl, hl, hsrc, hne', hgs⟩ := htail
      refine hdrop l' hl rfl (fun s1 hsh hgw hgk hgn => ?_)
      have hr : ∀ k ∈ th.reads, s1.get k = s.get k := fun k hk => hgw k (fun hw => hdisj k hw hk)
      exact ⟨hl.mono hsh hr, hgn, hsrc.mono hsh hr, hne', by rw [hgk src (fun e => hne' e.symm)]; exact hgs⟩
    · rename_i l src p heq
      simp only [List.cons.injEq] at heq
      obtain ⟨rfl, rfl⟩ := heq
      obtain ⟨hl, hgn, hsrc, hne', hgs⟩ := htail
      have hval := anch_valid s th.reads l h.counts hl.2
      have hvs := anch_valid s th.reads src h.counts hsrc.2
      have hvs' : (s.put l p).valid src = true := by rw [put_valid]; exact hvs
      have hgs' : (s.put l p).get src = p := by rw [put_get s l src p hval, if_neg (fun e => hne' e.symm)]; exact hgs
      simp only [RcState.exec, hval, hvs, Bool.not_true, Bool.or_self, Bool.false_eq_true, if_false]
      have hpt : ((s.put l p).put src none).threads = s.threads := by rw [put_threads, put_threads]
      rw [setTodo_eq _ t th [] (by rw [hpt]; exact ht)]
      have hgg : ∀ k, (⟨((s.put l p).put src none).vars, ((s.put l p).put src none).objs,
          ((s.put l p).put src none).threads.set t { th with todo := [] }⟩ : RcState).get k =
          ((s.put l p).put src none).get k := by
        intro k; cases k <;> rfl
      refine ⟨_, rfl, rcInv_thread s _ h t th ht hne [] (by simp only; rw [hpt]) ?_ ?_ ?_ ?_ ?_⟩
      · intro o
        have hpd := pend_set s ((s.put l p).put src none).vars ((s.put l p).put src none).objs t th [] ht o
        have hrc : th.todo.count (.dec o) = 0 := by rw [htd, dec_cons_count]; simp [ind]
        simp only [List.count_nil, hrc] at hpd
        have h1 := put_refs s l p hval o
        have h2 := put_refs (s.put l p) src none hvs' o
        rw [hgs'] at h2
        rw [hgn] at h1
        simp only [ind, reduceCtorEq, if_false] at h1 h2
        have h3 := h.counts o
        have h4 := put_cnt s l p o
        have h5 := put_cnt (s.put l p) src none o
        rw [hpt]
        have e1 : ∀ ths, cntOf ⟨((s.put l p).put src none).vars, ((s.put l p).put src none).objs, ths⟩ o =
          cntOf ((s.put l p).put src none) o := fun _ => rfl
        have e2 : ∀ ths, refs ⟨((s.put l p).put src none).vars, ((s.put l p).put src none).objs, ths⟩ o =
          refs ((s.put l p).put src none) o := fun _ => rfl
        rw [e1, e2]
        omega
      · exact put_pos _ _ _ (put_pos _ _ _ h.pos)
      · exact ((put_shape s l p).trans (put_shape _ src none)).trans ⟨rfl, fun _ ob h => ⟨ob, h, rfl⟩⟩
      · intro k hk
        have hkl : k ≠ l := fun e => hk (e ▸ hl.1)
        have hks : k ≠ src := fun e => hk (e ▸ hsrc.1)
        rw [hgg, put_get _ src k _ hvs', if_neg hks, put_get s l k _ hval, if_neg hkl]
      · intro hx; exact absurd rfl hx
    · exact absurd htail id
  · -- the work of a destructor
    rw [htd] at hsplit
    simp only [List.map_cons, List.cons_append, List.cons.injEq] at hsplit
    obtain ⟨rfl, hrest⟩ := hsplit
    obtain ⟨s', ds', he, hc', hp', hsh', hg', hth'⟩ := decObj_ok s t th rest d ht (by
      intro o'
      have h2 := h.counts o'
      have hl := hle o'
      rw [htd, dec_cons_count] at *
      simp only [ind, RcMicro.dec.injEq] at *
      by_cases ho : d = o'
      · subst ho; simp only [if_true] at *; omega
      · rw [if_neg ho] at *; rw [if_neg (fun e => ho e.symm)]; omega) hle h.pos
    refine ⟨s', he, rcInv_thread s s' h t th ht hne _ hth' hc' hp' hsh' (fun k _ => hg' k) ?_⟩
    intro _
    refine ⟨hdisj, ds' ++ ds, tail, by rw [hrest]; simp, ?_⟩
    exact TailOk.congr (th := th) rfl rfl (htail.mono hsh' (fun k _ => hg' k) (fun k _ => hg' k))

/-! ## Starting operations -/

theorem resolve_anch (s : RcState) (d : RcPlace) (l : RcLoc) (reads : List RcLoc) (h : s.resolve d = some l)
    (hr : ∀ g ∈ d.guard, g ∈ reads) : Anch s reads l := by
  cases d with
  | var i =>
    simp only [RcState.resolve] at h
    split at h
    · rename_i hv
      simp only [Option.some.injEq] at h
      subst h
      simpa [RcState.valid, Anch] using hv
    · cases h
  | field v j =>
    simp only [RcState.resolve] at h
    split at h
    · rename_i o ho
      split at h
      · rename_i hv
        simp only [Option.some.injEq] at h
        subst h
        refine ⟨⟨v, hr _ (by simp [RcPlace.guard]), ho⟩, ?_⟩
        simp only [RcState.valid] at hv
        split at hv
        · rename_i ob hob
          simp only [Bool.and_eq_true, decide_eq_true_eq] at hv
          exact ⟨ob, hob, hv.2⟩
        · cases hv
      · cases h
    · cases h

theorem compile_ok (s : RcState) (o : RcOp) (th' : RcThread) (h : s.compile o = some th')
    (hd : ∀ l ∈ th'.writes, l ∉ th'.reads) : ThreadOk s th' := by
  intro hne
  refine ⟨hd, [], th'.todo, rfl, ?_⟩
  cases o with
  | make v k => simp [RcState.compile] at h
  | drop d =>
    simp only [RcState.compile] at h
    split at h
    · rename_i l hl
      simp only [Option.some.injEq] at h
      subst h
      exact ⟨by simp, resolve_anch s d l _ hl (fun g hg => hg)⟩
    · cases h
  | copy d c =>
    simp only [RcState.compile] at h
    split at h
    · rename_i l src hl hsrc
      split at h
      · simp only [Option.some.injEq] at h
        subst h
        exact absurd rfl hne
      · split at h
        · simp only [Option.some.injEq] at h
          subst h
          exact ⟨by simp, resolve_anch s d l _ hl (fun g hg => by simp [hg])⟩
        · rename_i q hq
          simp only [Option.some.injEq] at h
          subst h
          exact ⟨rfl, ⟨by simp, resolve_anch s d l _ hl (fun g hg => by simp [hg])⟩,
            src, by simp, hq, resolve_anch s c src _ hsrc (fun g hg => by simp [hg])⟩
    · cases h
  | move d c =>
    simp only [RcState.compile] at h
    split at h
    · rename_i l src hl hsrc
      split at h
      · simp only [Option.some.injEq] at h
        subst h
        exact ⟨by simp, resolve_anch s d l _ hl (fun g hg => hg)⟩
      · rename_i hls
        simp only [Option.some.injEq] at h
        subst h
        exact ⟨rfl, ⟨by simp, resolve_anch s d l _ hl (fun g hg => by simp [hg])⟩,
          ⟨by simp, resolve_anch s c src _ hsrc (fun g hg => by simp [hg])⟩, hls, rfl⟩
    · cases h

theorem compile_no_dec (s : RcState) (o : RcOp) (th' : RcThread) (h : s.compile o = some th') (x : Nat) :
    th'.todo.count (.dec x) = 0 := by
  rw [List.count_eq_zero]
  cases o with
  | make v k => simp [RcState.compile] at h
  | drop d =>
    simp only [RcState.compile] at h
    split at h
    · simp only [Option.some.injEq] at h; subst h; simp
    · cases h
  | copy d c =>
    simp only [RcState.compile] at h
    split at h
    · split at h
      · simp only [Option.some.injEq] at h; subst h; simp
      · split at h <;> (simp only [Option.some.injEq] at h; subst h; simp)
    · cases h
  | move d c =>
    simp only [RcState.compile] at h
    split at h
    · split at h <;> (simp only [Option.some.injEq] at h; subst h; simp)
    · cases h

theorem start_ok (s : RcState) (h : RcInv s) (t : Nat) (th th' : RcThread) (ht : s.threads[t]? = some th)
    (hidle : th.todo = []) (o : RcOp) (hco : s.compile o = some th') (hrf : RaceFree s th') :
    RcInv { s with threads := s.threads.set t th' } := by
  have hgg : ∀ k, ({ s with threads := s.threads.set t th' } : RcState).get k = s.get k := by
    intro k; cases k <;> rfl
  have hsh : SameShape s { s with threads := s.threads.set t th' } := ⟨rfl, fun _ ob h => ⟨ob, h, rfl⟩⟩
  have cases' : ∀ (u : Nat) (b : RcThread), (s.threads.set t th')[u]? = some b →
      (u = t ∧ b = th') ∨ (u ≠ t ∧ s.threads[u]? = some b) := by
    intro u b hb
    rw [List.getElem?_set] at hb
    split at hb
    · split at hb
      · simp only [Option.some.injEq] at hb
        exact Or.inl ⟨by omega, hb.symm⟩
      · cases hb
    · exact Or.inr ⟨by omega, hb⟩
  refine ⟨?_, h.pos, ?_, ?_⟩
  · intro x
    have h1 := h.counts x
    have h2 := sum_set (fun th : RcThread => th.todo.count (.dec x)) s.threads t th th' ht
    have h3 := compile_no_dec s o th' hco x
    simp only [hidle, List.count_nil, h3] at h2
    simp only [cntOf, refs, pend] at h1 ⊢
    omega
  · intro u b hb
    rcases cases' u b hb with ⟨_, rfl⟩ | ⟨_, hb'⟩
    · exact (compile_ok s o b hco hrf.1).mono hsh (fun _ k _ => hgg k) (fun _ k _ => hgg k)
    · exact (h.threads u b hb').mono hsh (fun _ k _ => hgg k) (fun _ k _ => hgg k)
  · intro u w a b ha hb huw hane hbne l hl
    rcases cases' u a ha with ⟨rfl, rfl⟩ | ⟨hu, ha'⟩ <;> rcases cases' w b hb with ⟨rfl, rfl⟩ | ⟨hw, hb'⟩
    · exact absurd rfl huw
    · exact (hrf.2 b (List.mem_of_getElem? hb') hbne).1 l hl
    · obtain ⟨h1, h2⟩ := hrf.2 a (List.mem_of_getElem? ha') hane
      exact ⟨fun hr => h2 l hr hl, fun hr => (h1 l hr).2 hl⟩
    · exact h.locks u w a b ha' hb' huw hane hbne l hl

theorem replicate_none_count (k o : Nat) : (List.replicate k (none : Option Nat)).count (some o) = 0 := by
  rw [List.count_eq_zero]; simp

theorem make_ok (s : RcState) (h : RcInv s) (v k : Nat) (hv : s.valid (.var v) = true) (hn : s.get (.var v) = none)
    (hrf : RaceFreeVar s v) :
    RcInv { s with objs := s.objs ++ [⟨true, 1, List.replicate k none⟩], vars := s.vars.set v (some s.objs.length) } := by
  have hlt : v < s.vars.length := by simpa [RcState.valid] using hv
  have hvn : s.vars[v]? = some none := by
    rcases hx : s.vars[v]? with _ | x
    · rw [List.getElem?_eq_none_iff] at hx; omega
    · simp only [RcState.get, hx, Option.join_some] at hn; rw [hn]
  have hgg : ∀ l, l ≠ .var v → ({ s with
      objs := s.objs ++ [⟨true, 1, List.replicate k none⟩], vars := s.vars.set v (some s.objs.length) } : RcState).get l =
      s.get l := by
    intro l hl
    cases l with
    | var i =>
      have hi : v ≠ i := fun e => hl (by rw [e])
      simp only [RcState.get]
      rw [List.getElem?_set, if_neg hi]
    | fld o j =>
      simp only [RcState.get]
      rcases Nat.lt_trichotomy o s.objs.length with ho | ho | ho
      · rw [List.getElem?_append_left ho]
      · subst ho
        rw [List.getElem?_append_right (Nat.le_refl _), List.getElem?_eq_none (Nat.le_refl s.objs.length)]
        simp only [Nat.sub_self, List.getElem?_cons_zero, Option.bind_some, Option.bind_none, List.getElem?_replicate]
        split <;> rfl
      · rw [List.getElem?_append_right (by omega), List.getElem?_eq_none (by omega : s.objs.length ≤ o),
          List.getElem?_eq_none (by simp; omega)]
  have hsh : SameShape s { s with
      objs := s.objs ++ [⟨true, 1, List.replicate k none⟩], vars := s.vars.set v (some s.objs.length) } := by
    refine ⟨by simp, fun o ob ho => ⟨ob, ?_, rfl⟩⟩
    simp only
    rw [List.getElem?_append_left (List.getElem?_eq_some_iff.1 ho).1]
    exact ho
  have hfr : ∀ (u : Nat) (b : RcThread), s.threads[u]? = some b → b.todo ≠ [] →
      RcLoc.var v ∉ b.reads ∧ RcLoc.var v ∉ b.writes := fun u b hb hne => hrf b (List.mem_of_getElem? hb) hne
  refine ⟨?_, ?_, ?_, h.locks⟩
  · intro o
    have h1 := h.counts o
    have h2 := count_set s.vars v none (some s.objs.length) (some o) hvn
    simp only [ind, reduceCtorEq, if_false, Option.some.injEq] at h2
    have e1 : objRefs o ⟨true, 1, List.replicate k none⟩ = 0 := by
      simp only [objRefs, if_true]; exact replicate_none_count k o
    simp only [refs, List.map_append, List.sum_append, List.map_cons, List.map_nil, List.sum_cons, List.sum_nil, e1]
    have h5 : pend { s with objs := s.objs ++ [⟨true, 1, List.replicate k none⟩], vars := s.vars.set v (some s.objs.length) } o =
      pend s o := rfl
    rw [h5]
    simp only [cntOf, refs] at h1 ⊢
    rcases Nat.lt_trichotomy o s.objs.length with ho | ho | ho
    · rw [List.getElem?_append_left ho]
      rw [if_neg (by omega)] at h2
      omega
    · subst ho
      rw [List.getElem?_eq_none (Nat.le_refl s.objs.length)] at h1
      rw [List.getElem?_append_right (Nat.le_refl _)]
      simp only [Nat.sub_self, List.getElem?_cons_zero, if_true] at h1 h2 ⊢
      omega
    · rw [List.getElem?_eq_none (by omega : s.objs.length ≤ o)] at h1
      rw [List.getElem?_eq_none (by simp; omega)]
      rw [if_neg (by omega)] at h2
      simp only at h1 ⊢
      omega
  · intro o ob ho ha
    simp only at ho
    rw [List.getElem?_append] at ho
    split at ho
    · exact h.pos o ob ho ha
    · rcases hq : o - s.objs.length with _ | q
      · rw [hq] at ho; simp at ho; subst ho; simp
      · rw [hq] at ho; simp at ho
  · intro u b hb
    refine (h.threads u b hb).mono hsh (fun hne l hl => hgg l ?_) (fun hne l hl => hgg l ?_)
    · rintro rfl; exact (hfr u b hb hne).1 hl
    · rintro rfl; exact (hfr u b hb hne).2 hl

theorem event_ok (s : RcState) (h : RcInv s) (e : RcEvent)
    (hc : match e with
      | .start _ (.make v _) => RaceFreeVar s v
      | .start _ o => ∀ th', s.compile o = some th' → RaceFree s th'
      | .step _ => True) : ∃ s', s.event e = .ok s' ∧ RcInv s' := by
  have gen : ∀ (t : Nat) (o : RcOp), (∀ th', s.compile o = some th' → RaceFree s th') → ∃ s',
      (match s.threads[t]?, s.compile o with
        | some (th : RcThread), some (th' : RcThread) =>
          if th.todo = [] then Res.ok { s with threads := s.threads.set t th' } else Res.ok s
        | _, _ => Res.ok s) = Res.ok s' ∧ RcInv s' := by
    intro t o hrf
    split
    · rename_i th th' hth hco
      split
      · rename_i hidle
        exact ⟨_, rfl, start_ok s h t th th' hth hidle o hco (hrf th' hco)⟩
      · exact ⟨s, rfl, h⟩
    · exact ⟨s, rfl, h⟩
  cases e with
  | step t =>
    simp only [RcState.event]
    split
    · rename_i th hth
      split
      · exact ⟨s, rfl, h⟩
      · rename_i m rest htd
        exact exec_ok s h t th hth m rest htd
    · exact ⟨s, rfl, h⟩
  | start t o =>
    cases o with
    | make v k =>
      simp only [RcState.event]
      split
      · split
        · rename_i hcond
          exact ⟨_, rfl, make_ok s h v k hcond.2.1 hcond.2.2 hc⟩
        · exact ⟨s, rfl, h⟩
      · exact ⟨s, rfl, h⟩
    | copy d c => exact gen t (.copy d c) hc
    | move d c => exact gen t (.move d c) hc
    | drop d => exact gen t (.drop d) hc

theorem run_ok : ∀ (es : List RcEvent) (s : RcState), RcInv s → CarefulRc s es → ∃ s', s.run es = .ok s' ∧ RcInv s'
  | [], s, h, _ => ⟨s, rfl, h⟩
  | e :: es, s, h, hc => by
    obtain ⟨s1, h1, h2⟩ := event_ok s h e hc.1
    obtain ⟨s', h3, h4⟩ := run_ok es s1 h2 (hc.2 s1 h1)
    exact ⟨s', by simp only [RcState.run, h1]; exact h3, h4⟩

theorem refs_pos_loc (s : RcState) (o : Nat) (h : 0 < refs s o) : ∃ l, s.valid l = true ∧ s.get l = some o := by
  unfold refs at h
  rcases Nat.lt_or_ge 0 (s.vars.count (some o)) with hv | hv
  · obtain ⟨i, hi⟩ := List.getElem?_of_mem (List.count_pos_iff.1 hv)
    exact ⟨.var i, by simpa [RcState.valid] using (List.getElem?_eq_some_iff.1 hi).1, by simp [RcState.get, hi]⟩
  · have hs : 0 < (s.objs.map (objRefs o)).sum := by omega
    have : ∃ x ∈ s.objs.map (objRefs o), 0 < x := by
      generalize s.objs.map (objRefs o) = l at hs
      clear h hv
      induction l with
      | nil => simp at hs
      | cons x l ih =>
        rcases Nat.lt_or_ge 0 x with hx | hx
        · exact ⟨x, by simp, hx⟩
        · simp only [List.sum_cons] at hs
          obtain ⟨y, hy, hy'⟩ := ih (by omega)
          exact ⟨y, by simp [hy], hy'⟩
    obtain ⟨x, hx, hx0⟩ := this
    obtain ⟨ob, hob, rfl⟩ := List.mem_map.1 hx
    obtain ⟨p, hp⟩ := List.getElem?_of_mem hob
    unfold objRefs at hx0
    split at hx0
    · rename_i ha
      obtain ⟨j, hj⟩ := List.getElem?_of_mem (List.count_pos_iff.1 hx0)
      exact ⟨.fld p j, by simpa [RcState.valid, hp, ha] using (List.getElem?_eq_some_iff.1 hj).1,
        by simp [RcState.get, hp, hj]⟩
    · omega

theorem pend_pos (s : RcState) (o : Nat) (h : 0 < pend s o) : ∃ th ∈ s.threads, RcMicro.dec o ∈ th.todo := by
  unfold pend at h
  generalize s.threads = l at h ⊢
  induction l with
  | nil => simp at h
  | cons x l ih =>
    rcases Nat.lt_or_ge 0 (x.todo.count (.dec o)) with hx | hx
    · exact ⟨x, by simp, List.count_pos_iff.1 hx⟩
    · simp only [List.map_cons, List.sum_cons] at h
      obtain ⟨y, hy, hy'⟩ := ih (by omega)
      exact ⟨y, by simp [hy], hy'⟩

theorem alive_iff (s : RcState) (h : RcInv s) (o : Nat) : Alive s o ↔ Referenced s o := by
  have hc := h.counts o
  constructor
  · rintro ⟨ob, hob, ha⟩
    have hp := h.pos o ob hob ha
    have : cntOf s o = ob.count := by simp [cntOf, hob, ha]
    rcases Nat.lt_or_ge 0 (refs s o) with hr | hr
    · exact Or.inl (refs_pos_loc s o hr)
    · exact Or.inr (pend_pos s o (by omega))
  · intro href
    apply alive_of_cnt
    rcases href with ⟨l, hv, hg⟩ | ⟨th, hth, hd⟩
    · have := refs_of_loc s l o hv hg; omega
    · obtain ⟨t, ht⟩ := List.getElem?_of_mem hth
      have h1 := count_le_pend s t th ht o
      have h2 := List.count_pos_iff.2 hd
      omega

end Mlio
