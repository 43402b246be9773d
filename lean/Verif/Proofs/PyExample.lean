import Verif.Spec.PyExample
import Verif.Props.Tensor

/-!
# Lemmas about Python programs with examples
-/

namespace Mlio

/-- The object `ex` is the list `l` of named features. -/
def ExRel {T : Type} (ex : Example (Option T)) (l : List (Bytes × T)) : Prop :=
  ex.features = l.map (fun p => some p.2) ∧
  ∃ attrs, makeSchema attrs = .ok ex.schema ∧ attrs.map Attr.name = l.map Prod.fst

/-- How far the iterator is. -/
def PyIter.at (it : PyIter) : Nat := if it.firstOrDone then it.pos else it.pos + 1

/-- Model and specification agree. -/
structure PySim {T : Type} (w : PyWorld T) (m : Spec.PyMem T) : Prop where
  vars : w.vars = m.vars
  kept : w.kept = m.kept
  exlen : w.exs.length = m.exs.length
  exs : ∀ (e : Nat) o, w.exs[e]? = some o → ∃ l, m.exs[e]? = some l ∧ ExRel o.ex l
  itlen : w.iters.length = m.iters.length
  iters : ∀ (k : Nat) it, w.iters[k]? = some it → ∃ l, m.exs[it.of]? = some l ∧
    m.iters[k]? = some (it.of, (l.map Prod.snd).drop it.at) ∧ it.at ≤ l.length
  bex : ∀ e, m.Refers e → e < m.exs.length
  bit : ∀ k, .iter k ∈ m.vars → k < m.iters.length
  alive : ∀ (e : Nat) o, m.Refers e → w.exs[e]? = some o → o.alive = true

theorem held_iff {T : Type} {w : PyWorld T} {m : Spec.PyMem T} (h : w.vars = m.vars) (hk : w.kept = m.kept) (e : Nat) :
    w.held e = true ↔ m.Refers e := by
  unfold PyWorld.held Spec.PyMem.Refers
  rw [h, hk]
  simp only [Bool.or_eq_true, List.any_eq_true, List.contains_iff_mem]
  constructor
  · rintro (⟨v, hv, h⟩ | h)
    · cases v <;> simp at h
      subst h; exact .inl hv
    · exact .inr h
  · rintro (h | h)
    · exact .inl ⟨_, h, by simp⟩
    · exact .inr h

theorem sweep_sim {T : Type} {w : PyWorld T} {m : Spec.PyMem T} (h : PySim w m) : PySim w.sweep m := by
  have hx : ∀ (e : Nat) o', w.sweep.exs[e]? = some o' → ∃ o, w.exs[e]? = some o ∧ o'.ex = o.ex ∧
      o'.alive = (o.alive && w.held e) := by
    intro e o' ho
    simp only [PyWorld.sweep, List.getElem?_mapIdx, Option.map_eq_some_iff] at ho
    obtain ⟨o, ho, rfl⟩ := ho
    exact ⟨o, ho, rfl, rfl⟩
  refine ⟨h.vars, h.kept, by simp [PyWorld.sweep, h.exlen], ?_, h.itlen, h.iters, h.bex, h.bit, ?_⟩
  · intro e o' ho
    obtain ⟨o, ho, he, _⟩ := hx e o' ho
    rw [he]; exact h.exs e o ho
  · intro e o' hr ho
    obtain ⟨o, ho, _, ha⟩ := hx e o' ho
    rw [ha, h.alive e o hr ho, (held_iff h.vars h.kept e).2 hr]; rfl

theorem var_eq {T : Type} {w : PyWorld T} {m : Spec.PyMem T} (h : PySim w m) (x : Nat) : w.var x = m.var x := by
  unfold PyWorld.var Spec.PyMem.var; rw [h.vars]

theorem var_mem {T : Type} {m : Spec.PyMem T} {x : Nat} {v : PyTarget T} (h : m.var x = v) (hv : v ≠ .nothing) :
    v ∈ m.vars := by
  unfold Spec.PyMem.var at h
  rw [List.getD_eq_getElem?_getD] at h
  cases hx : m.vars[x]? with
  | none => rw [hx] at h; exact absurd h.symm hv
  | some u =>
    rw [hx] at h
    simp at h
    subst h
    exact List.mem_of_getElem? hx

theorem setVar_sim {T : Type} {w : PyWorld T} {m : Spec.PyMem T} (h : PySim w m) (x : Nat) (v : PyTarget T)
    (he : ∀ e, v = .ex e → e < m.exs.length ∧ ∀ o, w.exs[e]? = some o → o.alive = true)
    (hi : ∀ k, v = .iter k → k < m.iters.length) :
    PySim (w.setVar x v) { m with vars := m.vars.set x v } := by
  have hr : ∀ e, Spec.PyMem.Refers { m with vars := m.vars.set x v } e → v = .ex e ∨ m.Refers e := by
    intro e hr
    rcases hr with hr | hr
    · rcases List.mem_or_eq_of_mem_set hr with hr | hr
      · exact .inr (.inl hr)
      · exact .inl hr.symm
    · exact .inr (.inr hr)
  refine ⟨by simp [PyWorld.setVar, h.vars], h.kept, h.exlen, h.exs, h.itlen, h.iters, ?_, ?_, ?_⟩
  · intro e hr'
    rcases hr e hr' with hv | hv
    · exact (he e hv).1
    · exact h.bex e hv
  · intro k hk
    rcases List.mem_or_eq_of_mem_set hk with hk | hk
    · exact h.bit k hk
    · exact hi k hk.symm
  · intro e o hr' ho
    rcases hr e hr' with hv | hv
    · exact (he e hv).2 o ho
    · exact h.alive e o hv ho

theorem setVar_refers {T : Type} {w : PyWorld T} {m : Spec.PyMem T} (h : PySim w m) (x y : Nat) :
    PySim (w.setVar x (w.var y)) { m with vars := m.vars.set x (m.var y) } := by
  rw [var_eq h]
  refine setVar_sim h x _ ?_ ?_
  · intro e he
    have hm : m.Refers e := .inl (var_mem he (by simp))
    exact ⟨h.bex e hm, fun o ho => h.alive e o hm ho⟩
  · intro k hk
    exact h.bit k (var_mem hk (by simp))

theorem tensors_eq {T : Type} : ∀ (fs : List (Option T)), none ∉ fs → ∃ ts, Spec.tensors fs = some ts ∧ fs = ts.map some
  | [], _ => ⟨[], rfl, rfl⟩
  | none :: fs, h => absurd (by simp) h
  | some t :: fs, h => by
    obtain ⟨ts, h1, h2⟩ := tensors_eq fs (fun hm => h (by simp [hm]))
    exact ⟨t :: ts, by simp [Spec.tensors, h1], by simp [h2]⟩

theorem make_named {T : Type} (as : List Attr) (ts : List T) :
    (Spec.named as ts = none ∧ pyMake (some as) (ts.map some) = .err .invalidArgument) ∨
    ∃ e l, Spec.named as ts = some l ∧ pyMake (some as) (ts.map some) = .ok e ∧ ExRel e l := by
  unfold Spec.named pyMake
  by_cases hn : (as.map Attr.name).Nodup
  · obtain ⟨s, hs⟩ := (C43_accepted_iff as).1.2 hn
    have ha := (C43_lookup as s hs []).1
    by_cases hl : as.length = ts.length
    · right
      refine ⟨⟨s, ts.map some⟩, (as.map Attr.name).zip ts, if_pos ⟨hn, hl⟩, ?_, ?_, as, hs, ?_⟩
      · simp [hs, newExample, ha, hl]
      · show ts.map some = _
        have : (fun p : Bytes × T => some p.2) = some ∘ Prod.snd := rfl
        rw [this, ← List.map_map, List.map_snd_zip (by simp [hl])]
      · rw [List.map_fst_zip (by simp [hl])]
    · left
      refine ⟨if_neg (fun h => hl h.2), ?_⟩
      simp [hs, newExample, ha, hl]
  · left
    refine ⟨if_neg (fun h => hn h.1), ?_⟩
    simp [(C43_accepted_iff as).2 hn]

theorem find_name {T : Type} {ex : Example (Option T)} {l : List (Bytes × T)} (h : ExRel ex l) (n : Bytes) :
    (ex.schema.getIndex n = none ∧ l.find? (fun p => p.1 == n) = none) ∨
    ∃ i p, ex.schema.getIndex n = some i ∧ l[i]? = some p ∧ l.find? (fun p => p.1 == n) = some p := by
  obtain ⟨_, attrs, hs, hn⟩ := h
  obtain ⟨_, hi, ho⟩ := C43_lookup attrs ex.schema hs n
  have hnd := (C43_accepted_iff attrs).1.1 ⟨_, hs⟩
  rw [hn] at hnd
  cases hf : l.find? (fun p => p.1 == n) with
  | none =>
    left
    refine ⟨ho.2 ?_, rfl⟩
    intro a ha hx
    have : n ∈ attrs.map Attr.name := List.mem_map.2 ⟨a, ha, hx⟩
    rw [hn] at this
    obtain ⟨p, hp, hpn⟩ := List.mem_map.1 this
    have := List.find?_eq_none.1 hf p hp
    simp [hpn] at this
  | some p =>
    right
    have hpm := List.mem_of_find?_eq_some hf
    have hpn : p.1 = n := by simpa using List.find?_some hf
    obtain ⟨i, hip⟩ := List.mem_iff_getElem?.1 hpm
    refine ⟨i, p, ?_, hip, rfl⟩
    rw [hi i]
    have : (attrs.map Attr.name)[i]? = some n := by rw [hn, List.getElem?_map, hip]; simp [hpn]
    simpa [List.getElem?_map, Option.map_eq_some_iff] using this

theorem pyGet_eq {T : Type} {ex : Example (Option T)} {l : List (Bytes × T)} (h : ExRel ex l) (k : PyKey) :
    pyGet ex k = .ok (Spec.lookup l k) := by
  cases k with
  | name n =>
    unfold pyGet Spec.lookup Example.findFeature
    rcases find_name h n with ⟨h1, h2⟩ | ⟨i, p, h1, h2, h3⟩
    · simp [h1, h2]
    · simp [h1, h3, h.1, h2]
  | index i =>
    unfold pyGet Spec.lookup
    by_cases hi : i < 0
    · simp [hi]
    · simp only [hi, if_false, h.1, List.getElem?_map]
      cases l[i.toNat]? <;> simp
  | other => rfl

theorem pyHas_eq {T : Type} {ex : Example (Option T)} {l : List (Bytes × T)} (h : ExRel ex l) (k : PyKey) :
    pyHas ex k = Spec.contains l k := by
  cases k with
  | name n =>
    unfold pyHas Spec.contains
    rcases find_name h n with ⟨h1, h2⟩ | ⟨i, p, h1, h2, h3⟩
    · have : l.any (fun p => p.1 == n) = false := by
        rw [List.any_eq_false]; intro p hp; exact List.find?_eq_none.1 h2 p hp
      simp [h1, this]
    · have : l.any (fun p => p.1 == n) = true :=
        List.any_eq_true.2 ⟨p, List.mem_of_find?_eq_some h3, by simpa using List.find?_some h3⟩
      simp [h1, this]
  | index i =>
    unfold pyHas Spec.contains
    by_cases hi : i < 0
    · simp [hi]
    · simp [hi, h.1]
  | other => rfl

theorem ex_of_var {T : Type} {w : PyWorld T} {m : Spec.PyMem T} (h : PySim w m) {y e : Nat} (hy : m.var y = .ex e) :
    ∃ o l, w.exs[e]? = some o ∧ m.exs[e]? = some l ∧ m.exs.getD e [] = l ∧ ExRel o.ex l ∧ m.Refers e := by
  have hm : m.Refers e := .inl (var_mem hy (by simp))
  have hl := h.bex e hm
  rw [← h.exlen] at hl
  obtain ⟨l, h1, h2⟩ := h.exs e _ (List.getElem?_eq_getElem hl)
  exact ⟨_, l, List.getElem?_eq_getElem hl, h1, by simp [List.getD_eq_getElem?_getD, h1], h2, hm⟩

/-- One statement. -/
theorem py_step {T : Type} {w : PyWorld T} {m : Spec.PyMem T} (h : PySim w m) (p : PyStep T) (hf : m.Fine p) :
    ∃ w', w.step p = .ok ((m.step p).1, w') ∧ PySim w' (m.step p).2 := by
  cases p with
  | make x attrs fs =>
    obtain ⟨ha, hfs⟩ := hf
    obtain ⟨ts, h1, rfl⟩ := tensors_eq fs hfs
    cases attrs with
    | none => exact absurd rfl ha
    | some as =>
      simp only [PyWorld.step, Spec.PyMem.step, h1]
      rcases make_named as ts with ⟨h2, h3⟩ | ⟨e, l, h2, h3, h4⟩
      · simp only [h2, h3]
        exact ⟨_, rfl, h⟩
      · simp only [h2, h3]
        refine ⟨_, rfl, sweep_sim ?_⟩
        have hbase : PySim { w with exs := w.exs ++ [⟨e, true⟩] } { m with exs := m.exs ++ [l] } := by
          refine ⟨h.vars, h.kept, by simp [h.exlen], ?_, h.itlen, ?_, ?_, h.bit, ?_⟩
          · intro e' o ho
            simp only [List.getElem?_append, h.exlen] at ho ⊢
            by_cases hlt : e' < m.exs.length
            · simp only [hlt, if_true] at ho ⊢
              exact h.exs e' o ho
            · simp only [hlt, if_false] at ho ⊢
              cases hk : e' - m.exs.length with
              | zero =>
                simp only [hk] at ho ⊢
                simp at ho; subst ho
                exact ⟨l, rfl, h4⟩
              | succ n => simp [hk] at ho
          · intro k it hit
            obtain ⟨l', a, b, c⟩ := h.iters k it hit
            refine ⟨l', ?_, b, c⟩
            rw [List.getElem?_append_left (List.getElem?_eq_some_iff.1 a).1]; exact a
          · intro e' hr
            have := h.bex e' hr
            simp; omega
          · intro e' o hr ho
            have hlt := h.bex e' hr
            rw [← h.exlen] at hlt
            simp only at ho
            rw [List.getElem?_append_left hlt] at ho
            exact h.alive e' o hr ho
        have := setVar_sim hbase x (.ex w.exs.length) (by
          intro e' he'
          simp only [PyTarget.ex.injEq] at he'
          subst he'
          refine ⟨by simp [h.exlen], ?_⟩
          intro o ho
          simp at ho; subst ho; rfl) (by simp)
        simpa [h.exlen] using this
  | assign x y => exact ⟨_, rfl, sweep_sim (setVar_refers h x y)⟩
  | del x => exact ⟨_, rfl, sweep_sim (setVar_sim h x .nothing (by simp) (by simp))⟩
  | keep x =>
    simp only [PyWorld.step, Spec.PyMem.step, var_eq h]
    cases hx : m.var x with
    | ex e =>
      have hm : m.Refers e := .inl (var_mem hx (by simp))
      have hr : ∀ e', Spec.PyMem.Refers { m with kept := e :: m.kept } e' → m.Refers e' := by
        rintro e' (h' | h')
        · exact .inl h'
        · rcases List.mem_cons.1 h' with rfl | h'
          · exact hm
          · exact .inr h'
      refine ⟨_, rfl, h.vars, by simp [h.kept], h.exlen, h.exs, h.itlen, h.iters, fun e' h' => h.bex e' (hr e' h'),
        h.bit, fun e' o h' ho => h.alive e' o (hr e' h') ho⟩
    | nothing => exact ⟨_, rfl, h⟩
    | iter k => exact ⟨_, rfl, h⟩
    | tensor t => exact ⟨_, rfl, h⟩
  | unkeep =>
    refine ⟨_, rfl, sweep_sim ?_⟩
    have hr : ∀ e', Spec.PyMem.Refers { m with kept := [] } e' → m.Refers e' := by
      rintro e' (h' | h')
      · exact .inl h'
      · simp at h'
    exact ⟨h.vars, rfl, h.exlen, h.exs, h.itlen, h.iters, fun e' h' => h.bex e' (hr e' h'),
        h.bit, fun e' o h' ho => h.alive e' o (hr e' h') ho⟩
  | iter x y =>
    simp only [PyWorld.step, Spec.PyMem.step, var_eq h]
    cases hy : m.var y with
    | ex e =>
      obtain ⟨o, l, h1, h2, h3, h4, h5⟩ := ex_of_var h hy
      simp only [h3]
      refine ⟨_, rfl, sweep_sim ?_⟩
      have hbase : PySim { w with iters := w.iters ++ [⟨e, 0, true⟩] }
          { m with iters := m.iters ++ [(e, l.map Prod.snd)] } := by
        refine ⟨h.vars, h.kept, h.exlen, h.exs, by simp [h.itlen], ?_, h.bex, ?_, h.alive⟩
        · intro k it hit
          simp only [List.getElem?_append, h.itlen] at hit ⊢
          by_cases hlt : k < m.iters.length
          · simp only [hlt, if_true] at hit ⊢
            exact h.iters k it hit
          · simp only [hlt, if_false] at hit ⊢
            cases hk : k - m.iters.length with
            | zero =>
              simp only [hk] at hit ⊢
              simp at hit; subst hit
              exact ⟨l, h2, by simp [PyIter.at], by simp [PyIter.at]⟩
            | succ n => simp [hk] at hit
        · intro k hk
          have := h.bit k hk
          simp; omega
      have := setVar_sim hbase x (.iter w.iters.length) (by simp) (by
        intro k hk
        simp only [PyTarget.iter.injEq] at hk
        subst hk
        simp [h.itlen])
      simpa [h.itlen] using this
    | nothing => exact ⟨_, rfl, h⟩
    | iter k => exact ⟨_, rfl, h⟩
    | tensor t => exact ⟨_, rfl, h⟩
  | next x y =>
    simp only [PyWorld.step, Spec.PyMem.step, var_eq h]
    cases hy : m.var y with
    | iter k =>
      have hk := h.bit k (var_mem hy (by simp))
      rw [← h.itlen] at hk
      have hit := List.getElem?_eq_getElem hk
      generalize w.iters[k] = it at hit
      obtain ⟨l, h1, h2, h3⟩ := h.iters k it hit
      have hlt := (List.getElem?_eq_some_iff.1 h1).1
      rw [← h.exlen] at hlt
      have ho := List.getElem?_eq_getElem hlt
      generalize w.exs[it.of] = o at ho
      obtain ⟨l', h4, h5⟩ := h.exs _ o ho
      rw [h1] at h4
      simp only [Option.some.injEq] at h4
      subst h4
      simp only [hit, ho, h2]
      have hfl : o.ex.features.length = l.length := by rw [h5.1]; simp
      have hset : ∀ it' : PyIter, it'.of = it.of → it'.at ≤ l.length →
          PySim { w with iters := w.iters.set k it' }
            { m with iters := m.iters.set k (it.of, (l.map Prod.snd).drop it'.at) } := by
        intro it' hof hat
        refine ⟨h.vars, h.kept, h.exlen, h.exs, by simp [h.itlen], ?_, h.bex, ?_, h.alive⟩
        · intro k' i hi
          simp only [List.getElem?_set] at hi ⊢
          by_cases hkk : k = k'
          · subst hkk
            simp only [if_true] at hi ⊢
            rw [if_pos hk] at hi
            simp only [Option.some.injEq] at hi
            subst hi
            rw [if_pos (h.itlen ▸ hk)]
            exact ⟨l, by rw [hof]; exact h1, by rw [hof], hat⟩
          · simp only [hkk, if_false] at hi ⊢
            exact h.iters k' i hi
        · intro k' hk'
          simp only [List.length_set]
          exact h.bit k' hk'
      unfold PyIter.next
      simp only
      have hat : (if it.firstOrDone = true then it.pos else it.pos + 1) = it.at := rfl
      rw [hat]
      rcases Nat.lt_or_eq_of_le h3 with hl | hl
      · have hne : ¬ it.at = o.ex.features.length := by omega
        have hl' : it.at < (l.map Prod.snd).length := by simpa using hl
        have hd : (l.map Prod.snd).drop it.at = (l.map Prod.snd)[it.at] :: (l.map Prod.snd).drop (it.at + 1) :=
          List.drop_eq_getElem_cons hl'
        rw [if_neg hne]
        have hr : m.Refers it.of := hf k it.of _ _ hy (by rw [h2, hd])
        rw [if_pos (h.alive _ o hr ho)]
        have hfe : o.ex.features[it.at]? = some (some (l.map Prod.snd)[it.at]) := by
          rw [h5.1, List.getElem?_map, List.getElem?_eq_getElem hl]; simp
        simp only [hfe, hd]
        refine ⟨_, rfl, sweep_sim ?_⟩
        have := setVar_sim (hset ⟨it.of, it.at, false⟩ rfl hl) x
          (.tensor (some (l.map Prod.snd)[it.at])) (by simp) (by simp)
        simpa [PyIter.at] using this
      · have he : it.at = o.ex.features.length := by omega
        have hd : (l.map Prod.snd).drop it.at = [] := by rw [hl, List.drop_eq_nil_iff]; simp
        rw [if_pos he]
        simp only [hd]
        refine ⟨_, rfl, ?_⟩
        have := hset ⟨it.of, it.at, true⟩ rfl (by simpa [PyIter.at] using h3)
        have hsame : m.iters.set k (it.of, (l.map Prod.snd).drop it.at) = m.iters := by
          apply List.ext_getElem?
          intro j
          by_cases hj : k = j
          · subst hj
            rw [List.getElem?_set_self (h.itlen ▸ hk), h2]
          · rw [List.getElem?_set_ne hj]
        have hat' : (PyIter.mk it.of it.at true).at = it.at := rfl
        rw [hat', hsame] at this
        exact this
    | nothing => exact ⟨_, rfl, h⟩
    | ex e => exact ⟨_, rfl, h⟩
    | tensor t => exact ⟨_, rfl, h⟩
  | get x y k =>
    simp only [PyWorld.step, Spec.PyMem.step, var_eq h]
    cases hy : m.var y with
    | ex e =>
      obtain ⟨o, l, h1, h2, h3, h4, h5⟩ := ex_of_var h hy
      simp only [h1, h3, pyGet_eq h4]
      cases hk : Spec.lookup l k with
      | tensor t => exact ⟨_, rfl, sweep_sim (setVar_sim h x (.tensor t) (by simp) (by simp))⟩
      | _ => exact ⟨_, rfl, h⟩
    | nothing => exact ⟨_, rfl, h⟩
    | iter k => exact ⟨_, rfl, h⟩
    | tensor t => exact ⟨_, rfl, h⟩
  | has y k =>
    simp only [PyWorld.step, Spec.PyMem.step, var_eq h]
    cases hy : m.var y with
    | ex e =>
      obtain ⟨o, l, h1, h2, h3, h4, h5⟩ := ex_of_var h hy
      simp only [h1, h3, pyHas_eq h4]
      exact ⟨_, rfl, h⟩
    | nothing => exact ⟨_, rfl, h⟩
    | iter k => exact ⟨_, rfl, h⟩
    | tensor t => exact ⟨_, rfl, h⟩
  | len y =>
    simp only [PyWorld.step, Spec.PyMem.step, var_eq h]
    cases hy : m.var y with
    | ex e =>
      obtain ⟨o, l, h1, h2, h3, h4, h5⟩ := ex_of_var h hy
      have : o.ex.features.length = l.length := by rw [h4.1]; simp
      simp only [h1, h3, this]
      exact ⟨_, rfl, h⟩
    | nothing => exact ⟨_, rfl, h⟩
    | iter k => exact ⟨_, rfl, h⟩
    | tensor t => exact ⟨_, rfl, h⟩

/-- Whole programs. -/
theorem py_run {T : Type} : ∀ (prog : List (PyStep T)) {w : PyWorld T} {m : Spec.PyMem T}, PySim w m → m.AllFine prog →
    w.run prog = .ok (m.run prog)
  | [], _, _, _, _ => rfl
  | p :: ps, w, m, h, hf => by
    obtain ⟨w', h1, h2⟩ := py_step h p hf.1
    have := py_run ps h2 hf.2
    simp only [PyWorld.run, Spec.PyMem.run, h1, this]

theorem start_sim (T : Type) (n : Nat) : PySim (PyWorld.start T n) (Spec.PyMem.start T n) := by
  have hno : ∀ v : PyTarget T, v ∈ (Spec.PyMem.start T n).vars → v = .nothing := by
    intro v hv; exact (List.mem_replicate.1 hv).2
  have hr : ∀ e, ¬ (Spec.PyMem.start T n).Refers e := by
    rintro e (h | h)
    · have := hno _ h; simp at this
    · simp [Spec.PyMem.start] at h
  refine ⟨rfl, rfl, rfl, ?_, rfl, ?_, fun e h => absurd h (hr e), ?_, fun e _ h => absurd h (hr e)⟩
  · intro e o h; simp [PyWorld.start] at h
  · intro k it h; simp [PyWorld.start] at h
  · intro k h; have := hno _ h; simp at this

end Mlio
