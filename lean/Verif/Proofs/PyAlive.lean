import Verif.Spec.PyAlive

namespace Mlio
open Spec

/-- Without lifetimes. -/
def StoreObj.forget : StoreObj → Val
  | .store r => .store r.id
  | .list rs => .list (rs.map StoreRef.id)
  | .params is => .params is
  | .reader is => .reader is

theorem StoreProg.get_set (s : StoreProg) (x y : Nat) (v : Option StoreObj) :
    (s.set x v).get y = if y = x ∧ x < s.vars.length then v else s.get y := by
  unfold StoreProg.get StoreProg.set
  simp only [List.getElem?_set]
  by_cases h : x = y
  · subst h
    by_cases hl : x < s.vars.length <;> simp [hl]
  · simp [h, Ne.symm h]

/-- A reference in a variable. -/
def StoreProg.Refers (s : StoreProg) (r : StoreRef) : Prop := ∃ x o, s.get x = some o ∧ r ∈ o.refs

theorem alive_refers (s : StoreProg) (i : Nat) : s.alive i = true ↔ s.Refers (.made i) := by
  unfold StoreProg.alive StoreProg.Refers StoreProg.get
  rw [List.any_eq_true]
  constructor
  · rintro ⟨v, hv, h⟩
    obtain ⟨x, hx⟩ := List.mem_iff_getElem?.1 hv
    cases v with
    | none => simp at h
    | some o => exact ⟨x, o, by simp [hx], by simpa using h⟩
  · rintro ⟨x, o, h, hr⟩
    cases hx : s.vars[x]? with
    | none => simp [hx] at h
    | some v =>
      simp [hx] at h
      subst h
      exact ⟨_, List.mem_of_getElem? hx, by simpa using hr⟩

theorem Env.run_append (e : Env) (a b : List StoreStep) :
    (e.run (a ++ b)).1 = (e.run a).1 ++ ((e.run a).2.run b).1 ∧ (e.run (a ++ b)).2 = ((e.run a).2.run b).2 := by
  induction a generalizing e with
  | nil => exact ⟨rfl, rfl⟩
  | cons x a ih => simp [Env.run, (ih (e.step x).2).1, (ih (e.step x).2).2]

theorem StoreProg.run_append (e : StoreProg) (a b : List StoreStep) :
    (e.run (a ++ b)).1 = (e.run a).1 ++ ((e.run a).2.run b).1 ∧ (e.run (a ++ b)).2 = ((e.run a).2.run b).2 := by
  induction a generalizing e with
  | nil => exact ⟨rfl, rfl⟩
  | cons x a ih => simp [StoreProg.run, (ih (e.step x).2).1, (ih (e.step x).2).2]

theorem Env.made_step (e : Env) (a : StoreStep) : e.made ≤ (e.step a).2.made := by
  cases a <;> simp only [Env.step, Env.set] <;> (try split) <;> (try split) <;> simp

theorem Env.made_run (e : Env) (q : List StoreStep) : e.made ≤ (e.run q).2.made := by
  induction q generalizing e with
  | nil => exact Nat.le_refl _
  | cons a q ih => exact Nat.le_trans (Mlio.Env.made_step e a) (ih _)

/-- The program and its meaning. -/
structure Sim (n : Nat) (q : List StoreStep) (s : StoreProg) : Prop where
  vars : ((Env.start n).run q).2.vars = s.vars.map (Option.map StoreObj.forget)
  made : ((Env.start n).run q).2.made = s.python.length
  python : s.python = q.filterMap (fun a => match a with | .make _ python => some python | _ => none)
  first : ∀ i, s.Refers (.made i) → i < s.python.length ∧ AlwaysHeld n q i
  other : ∀ i, s.Refers (.later i) → i < s.python.length ∧ ¬ AlwaysHeld n q i
  ids : ∀ x is, (s.get x = some (.params is) ∨ s.get x = some (.reader is)) → ∀ i ∈ is, i < s.python.length

theorem Sim.get {n q s} (h : Sim n q s) (x : Nat) : ((Env.start n).run q).2.get x = (s.get x).map StoreObj.forget := by
  unfold Env.get StoreProg.get
  rw [h.vars, List.getElem?_map]
  cases s.vars[x]? <;> simp

theorem Sim.holds {n q s} (h : Sim n q s) (i : Nat) : ((Env.start n).run q).2.Holds i ↔ ∃ r, s.Refers r ∧ r.id = i := by
  unfold Env.Holds StoreProg.Refers
  simp only [h.get]
  constructor
  · rintro ⟨x, h1 | ⟨is, h1, hi⟩⟩
    · cases hx : s.get x with
      | none => simp [hx] at h1
      | some o =>
        cases o <;> simp [hx, StoreObj.forget] at h1
        rename_i r
        exact ⟨r, ⟨x, _, hx, by simp [StoreObj.refs]⟩, h1⟩
    · cases hx : s.get x with
      | none => simp [hx] at h1
      | some o =>
        cases o <;> simp [hx, StoreObj.forget] at h1
        rename_i rs
        subst h1
        obtain ⟨r, hr, e⟩ := List.mem_map.1 hi
        exact ⟨r, ⟨x, _, hx, hr⟩, e⟩
  · rintro ⟨r, ⟨x, o, hx, hr⟩, rfl⟩
    refine ⟨x, ?_⟩
    rw [hx]
    cases o with
    | store r' => simp [StoreObj.refs] at hr; subst hr; exact .inl rfl
    | list rs => exact .inr ⟨_, rfl, List.mem_map_of_mem hr⟩
    | params is => simp [StoreObj.refs] at hr
    | reader is => simp [StoreObj.refs] at hr

theorem Sim.alive {n q s} (h : Sim n q s) {i : Nat} (hi : i < s.python.length) : s.alive i = true ↔ AlwaysHeld n q i := by
  rw [alive_refers]
  constructor
  · intro hr
    exact (h.first i hr).2
  · intro hh
    have := hh q (List.prefix_refl q) (by rw [h.made]; exact hi)
    obtain ⟨r, hr, hid⟩ := (h.holds i).1 this
    cases r with
    | made j => simp only [StoreRef.id] at hid; subst hid; exact hr
    | later j => simp only [StoreRef.id] at hid; subst hid; exact absurd hh (h.other j hr).2

theorem Sim.getAll {n q s} (h : Sim n q s) (ys : List Nat) :
    ((Env.start n).run q).2.stores ys = (s.getAll ys).map (List.map StoreRef.id) := by
  induction ys with
  | nil => rfl
  | cons y ys ih =>
    simp only [Env.stores, StoreProg.getAll, h.get, ih]
    cases hy : s.get y with
    | none => rfl
    | some o =>
      cases o <;> simp only [Option.map_some, StoreObj.forget]
      all_goals (cases s.getAll ys <;> rfl)

theorem getAll_refers {s : StoreProg} : ∀ {ys rs}, s.getAll ys = some rs → ∀ r ∈ rs, s.Refers r
  | [], rs, h, r, hr => by simp [StoreProg.getAll] at h; subst h; simp at hr
  | y :: ys, rs, h, r, hr => by
    simp only [StoreProg.getAll] at h
    split at h
    · rename_i r0 rs0 hy hys
      cases h
      rcases List.mem_cons.1 hr with rfl | hr
      · exact ⟨y, _, hy, by simp [StoreObj.refs]⟩
      · exact getAll_refers hys r hr
    · cases h

theorem alwaysHeld_snoc (n : Nat) (q : List StoreStep) (a : StoreStep) (i : Nat) :
    AlwaysHeld n (q ++ [a]) i ↔ AlwaysHeld n q i ∧ (i < ((Env.start n).run (q ++ [a])).2.made → ((Env.start n).run (q ++ [a])).2.Holds i) := by
  constructor
  · intro h
    exact ⟨fun p hp => h p (hp.trans (List.prefix_append q [a])), h _ (List.prefix_refl _)⟩
  · rintro ⟨h1, h2⟩ p hp
    rcases List.prefix_concat_iff.1 hp with rfl | hp
    · exact h2
    · exact h1 p hp

/-- A step that keeps the variables or sets one of them, and does not make a data store. -/
theorem Sim.keep {n q s} (h : Sim n q s) (a : StoreStep) (s' : StoreProg)
    (hm : ∀ x b, a ≠ .make x b) (hpy : s'.python = s.python)
    (hv : ((Env.start n).run (q ++ [a])).2.vars = s'.vars.map (Option.map StoreObj.forget))
    (hmade : ((Env.start n).run (q ++ [a])).2.made = ((Env.start n).run q).2.made)
    (hf : ∀ i, s'.Refers (.made i) → i < s.python.length ∧ AlwaysHeld n q i)
    (ho : ∀ i, s'.Refers (.later i) → i < s.python.length ∧ ¬ AlwaysHeld n q i)
    (hids : ∀ x is, (s'.get x = some (.params is) ∨ s'.get x = some (.reader is)) → ∀ i ∈ is, i < s.python.length) :
    Sim n (q ++ [a]) s' := by
  have hh : ∀ r, s'.Refers r → ((Env.start n).run (q ++ [a])).2.Holds r.id := by
    rintro r ⟨x, o, hx, hr⟩
    refine ⟨x, ?_⟩
    have hg : ((Env.start n).run (q ++ [a])).2.get x = (s'.get x).map StoreObj.forget := by
      unfold Env.get StoreProg.get
      rw [hv, List.getElem?_map]
      cases s'.vars[x]? <;> simp
    rw [hg, hx]
    cases o with
    | store r' => simp [StoreObj.refs] at hr; subst hr; exact .inl rfl
    | list rs => exact .inr ⟨_, rfl, List.mem_map_of_mem hr⟩
    | params is => simp [StoreObj.refs] at hr
    | reader is => simp [StoreObj.refs] at hr
  refine ⟨hv, by rw [hmade, hpy, h.made], ?_, ?_, ?_, ?_⟩
  · rw [hpy, h.python, List.filterMap_append]
    cases a <;> simp at hm ⊢
  · intro i hr
    rw [hpy]
    exact ⟨(hf i hr).1, (alwaysHeld_snoc n q a i).2 ⟨(hf i hr).2, fun _ => hh _ hr⟩⟩
  · intro i hr
    rw [hpy]
    exact ⟨(ho i hr).1, fun hc => (ho i hr).2 ((alwaysHeld_snoc n q a i).1 hc).1⟩
  · rw [hpy]; exact hids

theorem Env.run_snoc (e : Env) (q : List StoreStep) (a : StoreStep) :
    (e.run (q ++ [a])).2 = ((e.run q).2.step a).2 := by
  rw [(Env.run_append e q [a]).2]; rfl

/-- Setting a variable to a value with known references. -/
theorem Sim.assign {n q s} (h : Sim n q s) (a : StoreStep) (x : Nat) (v : Option StoreObj) (hm : ∀ x b, a ≠ .make x b)
    (hstep : (((Env.start n).run q).2.step a).2 = ((Env.start n).run q).2.set x (v.map StoreObj.forget))
    (hf : ∀ o, v = some o → ∀ i, .made i ∈ o.refs → i < s.python.length ∧ AlwaysHeld n q i)
    (ho : ∀ o, v = some o → ∀ i, .later i ∈ o.refs → i < s.python.length ∧ ¬ AlwaysHeld n q i)
    (hids : ∀ is, (v = some (.params is) ∨ v = some (.reader is)) → ∀ i ∈ is, i < s.python.length) :
    Sim n (q ++ [a]) (s.set x v) := by
  have hrun := Env.run_snoc (Env.start n) q a
  refine h.keep a _ hm rfl ?_ ?_ ?_ ?_ ?_
  · rw [hrun, hstep]
    simp only [Env.set, StoreProg.set, h.vars, List.map_set]
  · rw [hrun, hstep]; rfl
  · rintro i ⟨y, o, hy, hr⟩
    rw [StoreProg.get_set] at hy
    split at hy
    · exact hf o hy i hr
    · exact h.first i ⟨y, o, hy, hr⟩
  · rintro i ⟨y, o, hy, hr⟩
    rw [StoreProg.get_set] at hy
    split at hy
    · exact ho o hy i hr
    · exact h.other i ⟨y, o, hy, hr⟩
  · intro y is hy
    rw [StoreProg.get_set] at hy
    split at hy
    · exact hids is hy
    · exact h.ids y is hy

/-- Nothing changes. -/
theorem Sim.same {n q s} (h : Sim n q s) (a : StoreStep) (hm : ∀ x b, a ≠ .make x b)
    (hstep : (((Env.start n).run q).2.step a).2 = ((Env.start n).run q).2) : Sim n (q ++ [a]) s := by
  have hrun := Env.run_snoc (Env.start n) q a
  exact h.keep a _ hm rfl (by rw [hrun, hstep, h.vars]) (by rw [hrun, hstep]) h.first h.other h.ids

/-- What opening gives. -/
def openOut (n : Nat) (q : List StoreStep) (o o' : StoreOut) : Prop :=
  (∀ i, o' = .opened i → (WrittenInPython q i ∧ ¬ AlwaysHeld n q i → o = .pureVirtual) ∧
      (¬ (WrittenInPython q i ∧ ¬ AlwaysHeld n q i) → o = .opened i)) ∧
    ((∀ i, o' ≠ .opened i) → o = o')

theorem Sim.openRead {n q s} (h : Sim n q s) {i : Nat} (hi : i < s.python.length) : openOut n q (s.openRead i) (.opened i) := by
  refine ⟨?_, fun hne => absurd rfl (hne i)⟩
  rintro j he
  cases he
  have hw : s.python.getD i false = true ↔ WrittenInPython q i := by
    refine Iff.trans ?_ (iff_of_eq (congrArg (fun l : List Bool => l[i]? = some true) h.python))
    rw [List.getD_eq_getElem?_getD, List.getElem?_eq_getElem hi]
    simp
  unfold StoreProg.openRead
  have ha := h.alive hi
  constructor
  · rintro ⟨h1, h2⟩
    rw [hw.2 h1, Bool.eq_false_iff.2 (fun hc => h2 (ha.1 hc))]
    rfl
  · intro hn
    rw [if_neg]
    simp only [Bool.and_eq_true, Bool.not_eq_true']
    rintro ⟨h1, h2⟩
    exact hn ⟨hw.1 h1, fun hc => by rw [ha.2 hc] at h2; cases h2⟩

theorem openOut_refl (n : Nat) (q : List StoreStep) {o : StoreOut} (h : ∀ i, o ≠ .opened i) : openOut n q o o :=
  ⟨fun i e => absurd e (h i), fun _ => rfl⟩

theorem Sim.step {n q s} (h : Sim n q s) (a : StoreStep) :
    openOut n q (s.step a).1 (((Env.start n).run q).2.step a).1 ∧ Sim n (q ++ [a]) (s.step a).2 := by
  have hg := h.get
  cases a with
  | make x b =>
    refine ⟨openOut_refl _ _ (by simp [StoreProg.step]), ?_⟩
    have hrun := Env.run_snoc (Env.start n) q (.make x b)
    have hv : ((Env.start n).run (q ++ [.make x b])).2.vars =
        (StoreProg.step s (.make x b)).2.vars.map (Option.map StoreObj.forget) := by
      rw [hrun]
      simp only [Env.step, Env.set, StoreProg.step, StoreProg.set, h.vars, List.map_set, Option.map_some, StoreObj.forget, StoreRef.id, h.made]
    have hg' : ∀ y, ((Env.start n).run (q ++ [.make x b])).2.get y = ((s.step (.make x b)).2.get y).map StoreObj.forget := by
      intro y
      unfold Env.get StoreProg.get
      rw [hv, List.getElem?_map]
      cases (s.step (.make x b)).2.vars[y]? <;> simp
    have hh : ∀ r, (s.step (.make x b)).2.Refers r → ((Env.start n).run (q ++ [.make x b])).2.Holds r.id := by
      rintro r ⟨y, o, hy, hr⟩
      refine ⟨y, ?_⟩
      rw [hg', hy]
      cases o with
      | store r' => simp [StoreObj.refs] at hr; subst hr; exact .inl rfl
      | list rs => exact .inr ⟨_, rfl, List.mem_map_of_mem hr⟩
      | params is => simp [StoreObj.refs] at hr
      | reader is => simp [StoreObj.refs] at hr
    have hpy : (s.step (.make x b)).2.python = s.python ++ [b] := rfl
    have hget : ∀ y, (s.step (.make x b)).2.get y = if y = x ∧ x < s.vars.length then some (.store (.made s.python.length)) else s.get y :=
      fun y => StoreProg.get_set { s with python := s.python ++ [b] } x y _
    refine ⟨hv, ?_, ?_, ?_, ?_, ?_⟩
    · rw [hrun, hpy]
      simp [Env.step, Env.set, h.made]
    · rw [hpy, h.python, List.filterMap_append]
      rfl
    · intro i hr
      have hH := hh _ hr
      obtain ⟨y, o, hy, hr⟩ := hr
      rw [hget] at hy
      rw [hpy, List.length_append, List.length_singleton]
      split at hy
      · cases hy
        simp [StoreObj.refs] at hr
        subst hr
        refine ⟨by omega, (alwaysHeld_snoc n q _ _).2 ⟨?_, fun _ => hH⟩⟩
        intro p hp hlt
        exfalso
        obtain ⟨t, rfl⟩ := hp
        have h1 := Env.made_run ((Env.start n).run p).2 t
        rw [← (Env.run_append (Env.start n) p t).2] at h1
        rw [h.made] at h1
        omega
      · have := h.first i ⟨y, o, hy, hr⟩
        exact ⟨by omega, (alwaysHeld_snoc n q _ _).2 ⟨this.2, fun _ => hH⟩⟩
    · rintro i ⟨y, o, hy, hr⟩
      rw [hget] at hy
      rw [hpy, List.length_append, List.length_singleton]
      split at hy
      · cases hy
        simp [StoreObj.refs] at hr
      · have := h.other i ⟨y, o, hy, hr⟩
        exact ⟨by omega, fun hc => this.2 ((alwaysHeld_snoc n q _ _).1 hc).1⟩
    · intro y is hy i hi
      rw [hget] at hy
      rw [hpy, List.length_append, List.length_singleton]
      split at hy
      · rcases hy with hy | hy <;> cases hy
      · have := h.ids y is hy i hi
        omega
  | list x ys =>
    have hs := h.getAll ys
    cases hc : s.getAll ys with
    | none =>
      rw [hc] at hs
      refine ⟨by simp only [StoreProg.step, Env.step, hs, hc]; exact openOut_refl _ _ (by simp), ?_⟩
      simp only [StoreProg.step, hc]
      exact h.same _ (by simp) (by simp only [Env.step, hs]; rfl)
    | some rs =>
      rw [hc] at hs
      refine ⟨by simp only [StoreProg.step, Env.step, hs, hc]; exact openOut_refl _ _ (by simp), ?_⟩
      simp only [StoreProg.step, hc]
      refine h.assign _ x _ (by simp) (by simp only [Env.step, hs]; rfl) ?_ ?_ ?_
      · rintro o ho i hi
        cases ho
        exact h.first i (getAll_refers hc _ hi)
      · rintro o ho i hi
        cases ho
        exact h.other i (getAll_refers hc _ hi)
      · simp
  | params x y =>
    have hy := hg y
    cases hc : s.get y with
    | none =>
      rw [hc] at hy
      refine ⟨by simp only [StoreProg.step, Env.step, hy, hc]; exact openOut_refl _ _ (by simp), ?_⟩
      simp only [StoreProg.step, hc]
      exact h.same _ (by simp) (by simp only [Env.step, hy]; rfl)
    | some o =>
      rw [hc] at hy
      cases o with
      | list rs =>
        refine ⟨by simp only [StoreProg.step, Env.step, hy, hc]; exact openOut_refl _ _ (by simp), ?_⟩
        simp only [StoreProg.step, hc]
        refine h.assign _ x _ (by simp) (by simp only [Env.step, hy]; rfl) (fun o ho i hi => ?_) (fun o ho i hi => ?_) (fun is his i hi => ?_)
        · cases ho; simp [StoreObj.refs] at hi
        · cases ho; simp [StoreObj.refs] at hi
        · simp at his
          subst his
          obtain ⟨r, hr, rfl⟩ := List.mem_map.1 hi
          cases r with
          | made j => exact (h.first j ⟨y, _, hc, hr⟩).1
          | later j => exact (h.other j ⟨y, _, hc, hr⟩).1
      | _ =>
        refine ⟨by simp only [StoreProg.step, Env.step, hy, hc]; exact openOut_refl _ _ (by simp), ?_⟩
        simp only [StoreProg.step, hc]
        exact h.same _ (by simp) (by simp only [Env.step, hy]; rfl)
  | dataset x y =>
    have hy := hg y
    cases hc : s.get y with
    | none =>
      rw [hc] at hy
      refine ⟨by simp only [StoreProg.step, Env.step, hy, hc]; exact openOut_refl _ _ (by simp), ?_⟩
      simp only [StoreProg.step, hc]
      exact h.same _ (by simp) (by simp only [Env.step, hy]; rfl)
    | some o =>
      rw [hc] at hy
      cases o with
      | params is =>
        refine ⟨by simp only [StoreProg.step, Env.step, hy, hc]; exact openOut_refl _ _ (by simp), ?_⟩
        simp only [StoreProg.step, hc]
        have hid : (is.map s.toPython).map StoreRef.id = is := by
          rw [List.map_map]
          conv => rhs; rw [← List.map_id is]
          apply List.map_congr_left
          intro i _
          simp only [Function.comp, StoreProg.toPython]
          split <;> rfl
        refine h.assign _ x _ (by simp) (by simp only [Env.step, hy, Option.map_some, StoreObj.forget, hid]) (fun o ho i hi => ?_) (fun o ho i hi => ?_)
          (by simp)
        · cases ho
          obtain ⟨j, hj, he⟩ := List.mem_map.1 hi
          have hlt := h.ids y is (.inl hc) j hj
          unfold StoreProg.toPython at he
          split at he
          · rename_i hal
            cases he
            exact ⟨hlt, (h.alive hlt).1 hal⟩
          · cases he
        · cases ho
          obtain ⟨j, hj, he⟩ := List.mem_map.1 hi
          have hlt := h.ids y is (.inl hc) j hj
          unfold StoreProg.toPython at he
          split at he
          · cases he
          · rename_i hal
            cases he
            exact ⟨hlt, fun hh => hal ((h.alive hlt).2 hh)⟩
      | _ =>
        refine ⟨by simp only [StoreProg.step, Env.step, hy, hc]; exact openOut_refl _ _ (by simp), ?_⟩
        simp only [StoreProg.step, hc]
        exact h.same _ (by simp) (by simp only [Env.step, hy]; rfl)
  | reader x y =>
    have hy := hg y
    cases hc : s.get y with
    | none =>
      rw [hc] at hy
      refine ⟨by simp only [StoreProg.step, Env.step, hy, hc]; exact openOut_refl _ _ (by simp), ?_⟩
      simp only [StoreProg.step, hc]
      exact h.same _ (by simp) (by simp only [Env.step, hy]; rfl)
    | some o =>
      rw [hc] at hy
      cases o with
      | params is =>
        refine ⟨by simp only [StoreProg.step, Env.step, hy, hc]; exact openOut_refl _ _ (by simp), ?_⟩
        simp only [StoreProg.step, hc]
        refine h.assign _ x _ (by simp) (by simp only [Env.step, hy]; rfl) (fun o ho i hi => ?_) (fun o ho i hi => ?_) (fun is' his i hi => ?_)
        · cases ho; simp [StoreObj.refs] at hi
        · cases ho; simp [StoreObj.refs] at hi
        · simp at his
          subst his
          exact h.ids y _ (.inl hc) i hi
      | _ =>
        refine ⟨by simp only [StoreProg.step, Env.step, hy, hc]; exact openOut_refl _ _ (by simp), ?_⟩
        simp only [StoreProg.step, hc]
        exact h.same _ (by simp) (by simp only [Env.step, hy]; rfl)
  | assign x y =>
    have hy := hg y
    cases hc : s.get y with
    | none =>
      rw [hc] at hy
      refine ⟨by simp only [StoreProg.step, Env.step, hy, hc]; exact openOut_refl _ _ (by simp), ?_⟩
      simp only [StoreProg.step, hc]
      exact h.same _ (by simp) (by simp only [Env.step, hy]; rfl)
    | some o =>
      rw [hc] at hy
      refine ⟨by simp only [StoreProg.step, Env.step, hy, hc]; exact openOut_refl _ _ (by simp), ?_⟩
      simp only [StoreProg.step, hc]
      refine h.assign _ x _ (by simp) (by simp only [Env.step, hy]; rfl) (fun o' ho i hi => ?_) (fun o' ho i hi => ?_) (fun is his i hi => ?_)
      · cases ho; exact h.first i ⟨y, _, hc, hi⟩
      · cases ho; exact h.other i ⟨y, _, hc, hi⟩
      · exact h.ids y is (by rw [hc]; exact his) i hi
  | del x =>
    have hy := hg x
    cases hc : s.get x with
    | none =>
      rw [hc] at hy
      refine ⟨by simp only [StoreProg.step, Env.step, hy, hc]; exact openOut_refl _ _ (by simp), ?_⟩
      simp only [StoreProg.step, hc]
      exact h.same _ (by simp) (by simp only [Env.step, hy]; rfl)
    | some o =>
      rw [hc] at hy
      refine ⟨by simp only [StoreProg.step, Env.step, hy, hc]; exact openOut_refl _ _ (by simp), ?_⟩
      simp only [StoreProg.step, hc]
      exact h.assign _ x _ (by simp) (by simp only [Env.step, hy]; rfl) (by simp) (by simp) (by simp)
  | «open» x =>
    have hy := hg x
    cases hc : s.get x with
    | none =>
      rw [hc] at hy
      refine ⟨by simp only [StoreProg.step, Env.step, hy, hc]; exact openOut_refl _ _ (by simp), ?_⟩
      simp only [StoreProg.step, hc]
      exact h.same _ (by simp) (by simp only [Env.step, hy]; rfl)
    | some o =>
      rw [hc] at hy
      cases o with
      | store r =>
        constructor
        · simp only [StoreProg.step, Env.step, hy, hc, Option.map_some, StoreObj.forget]
          cases r with
          | made j => exact h.openRead (h.first j ⟨x, _, hc, by simp [StoreObj.refs]⟩).1
          | later j => exact h.openRead (h.other j ⟨x, _, hc, by simp [StoreObj.refs]⟩).1
        · simp only [StoreProg.step, hc]
          exact h.same _ (by simp) (by simp only [Env.step, hy]; rfl)
      | _ =>
        refine ⟨by simp only [StoreProg.step, Env.step, hy, hc]; exact openOut_refl _ _ (by simp), ?_⟩
        simp only [StoreProg.step, hc]
        exact h.same _ (by simp) (by simp only [Env.step, hy]; rfl)
  | openNth x k =>
    have hy := hg x
    cases hc : s.get x with
    | none =>
      rw [hc] at hy
      refine ⟨by simp only [StoreProg.step, Env.step, hy, hc]; exact openOut_refl _ _ (by simp), ?_⟩
      simp only [StoreProg.step, hc]
      exact h.same _ (by simp) (by simp only [Env.step, hy]; rfl)
    | some o =>
      rw [hc] at hy
      cases o with
      | reader is =>
        cases hk : is[k]? with
        | none =>
          refine ⟨by simp only [StoreProg.step, Env.step, hy, hc, Option.map_some, StoreObj.forget, hk]; exact openOut_refl _ _ (by simp), ?_⟩
          simp only [StoreProg.step, hc, hk]
          exact h.same _ (by simp) (by simp only [Env.step, hy, Option.map_some, StoreObj.forget, hk])
        | some i =>
          constructor
          · simp only [StoreProg.step, Env.step, hy, hc, Option.map_some, StoreObj.forget, hk]
            exact h.openRead (h.ids x is (.inr hc) i (List.mem_of_getElem? hk))
          · simp only [StoreProg.step, hc, hk]
            exact h.same _ (by simp) (by simp only [Env.step, hy, Option.map_some, StoreObj.forget, hk])
      | _ =>
        refine ⟨by simp only [StoreProg.step, Env.step, hy, hc]; exact openOut_refl _ _ (by simp), ?_⟩
        simp only [StoreProg.step, hc]
        exact h.same _ (by simp) (by simp only [Env.step, hy]; rfl)

end Mlio
