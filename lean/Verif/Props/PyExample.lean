import Verif.Proofs.PyExample

/-!
# C96: examples in Python

Specification: `Verif/Spec/PyExample.lean`.  An example is a list of named features there, and nothing is destroyed.
-/

namespace Mlio

/-- C96: whatever a program does with examples, iterators and features, all statements give what they give if examples
are lists of named features.  Missing: `None` in place of a schema or a feature (`C96_none_violated`,
`C96_null_violated`), and iterators over examples that nothing else refers to (`C96_temporary_violated`). -/
theorem C96_program_partial {T : Type} (n : Nat) (prog : List (PyStep T))
    (h : (Spec.PyMem.start T n).AllFine prog) :
    (PyWorld.start T n).run prog = .ok ((Spec.PyMem.start T n).run prog) :=
  py_run prog (start_sim T n) h

theorem named_of {T : Type} {attrs : List Attr} {fs : List T} (hn : (attrs.map Attr.name).Nodup)
    (hl : attrs.length = fs.length) : Spec.named attrs fs = some ((attrs.map Attr.name).zip fs) := if_pos ⟨hn, hl⟩

theorem tensors_some {T : Type} : ∀ fs : List T, Spec.tensors (fs.map some) = some fs
  | [] => rfl
  | t :: fs => by simp [Spec.tensors, tensors_some fs]

theorem nextLoop {T : Type} : ∀ (fs : List T) (e : Nat) (m : Spec.PyMem T) (v0 v2 : PyTarget T),
    m.vars = [v0, .iter 0, v2] → m.iters = [(0, fs)] → v0 = .ex 0 →
    m.AllFine (List.replicate (fs.length + 1 + e) (.next 2 1)) ∧
    m.run (List.replicate (fs.length + 1 + e) (.next 2 1)) =
      fs.map (fun t => .tensor (some t)) ++ List.replicate (e + 1) .stopIteration
  | [], 0, m, v0, v2, hv, hi, _ => by
    have : m.var 1 = .iter 0 := by simp [Spec.PyMem.var, hv]
    refine ⟨⟨?_, trivial⟩, by simp [List.replicate, Spec.PyMem.run, Spec.PyMem.step, this, hi]⟩
    intro k e' t ts hk hi'
    rw [this] at hk; simp only [PyTarget.iter.injEq] at hk; subst hk
    rw [hi] at hi'; simp at hi'
  | [], e + 1, m, v0, v2, hv, hi, h0 => by
    have hvar : m.var 1 = .iter 0 := by simp [Spec.PyMem.var, hv]
    obtain ⟨h1, h2⟩ := nextLoop [] e m v0 v2 hv hi h0
    have hs : m.step (.next 2 1) = (.stopIteration, m) := by simp [Spec.PyMem.step, hvar, hi]
    have hr : ([] : List T).length + 1 + (e + 1) = (([] : List T).length + 1 + e) + 1 := by simp; omega
    rw [hr, List.replicate_succ]
    refine ⟨⟨?_, by rw [hs]; exact h1⟩, ?_⟩
    · intro k e' t ts hk hi'
      rw [hvar] at hk; simp only [PyTarget.iter.injEq] at hk; subst hk
      rw [hi] at hi'; simp at hi'
    · show (m.step _).1 :: (m.step _).2.run _ = _
      rw [hs, h2]; simp [List.replicate_succ]
  | t :: fs, e, m, v0, v2, hv, hi, h0 => by
    have hvar : m.var 1 = .iter 0 := by simp [Spec.PyMem.var, hv]
    have hs : m.step (.next 2 1) = (.tensor (some t),
        { m with iters := [(0, fs)], vars := [v0, .iter 0, .tensor (some t)] }) := by
      simp [Spec.PyMem.step, hvar, hi, hv]
    obtain ⟨h1, h2⟩ := nextLoop fs e { m with iters := [(0, fs)], vars := [v0, .iter 0, .tensor (some t)] } v0
      (.tensor (some t)) rfl rfl h0
    have hr : (t :: fs).length + 1 + e = (fs.length + 1 + e) + 1 := by simp; omega
    rw [hr, List.replicate_succ]
    refine ⟨⟨?_, by rw [hs]; exact h1⟩, ?_⟩
    · intro k e' t' ts hk hi'
      rw [hvar] at hk; simp only [PyTarget.iter.injEq] at hk; subst hk
      rw [hi] at hi'; simp at hi'
      rw [← hi'.1]
      exact .inl (by rw [hv, h0]; simp)
    · show (m.step _).1 :: (m.step _).2.run _ = _
      rw [hs, h2]; simp

/-- C96 for loops: `example = Example(...)`, `for feature in example`: every feature once, in the order of the
attributes, and then the loop ends, also if the iterator is asked again `e` times. -/
theorem C96_for_partial {T : Type} (attrs : List Attr) (fs : List T) (e : Nat)
    (hn : (attrs.map Attr.name).Nodup) (hl : attrs.length = fs.length) :
    (PyWorld.start T 3).run
      (.make 0 (some attrs) (fs.map some) :: .iter 1 0 :: List.replicate (fs.length + 1 + e) (.next 2 1)) =
    .ok (.done :: .done :: (fs.map (fun t => .tensor (some t)) ++ List.replicate (e + 1) .stopIteration)) := by
  have hsnd : (((attrs.map Attr.name).zip fs).map Prod.snd) = fs := List.map_snd_zip (by simp [hl])
  have h := nextLoop fs e (⟨[.ex 0, .iter 0, .nothing], [(attrs.map Attr.name).zip fs], [(0, fs)], []⟩ : Spec.PyMem T)
    _ _ rfl rfl rfl
  have hmake : (Spec.PyMem.start T 3).step (.make 0 (some attrs) (fs.map some)) =
      (.done, ⟨[.ex 0, .nothing, .nothing], [(attrs.map Attr.name).zip fs], [], []⟩) := by
    simp [Spec.PyMem.step, tensors_some, named_of hn hl, Spec.PyMem.start, List.replicate]
  have hiter : (⟨[.ex 0, .nothing, .nothing], [(attrs.map Attr.name).zip fs], [], []⟩ : Spec.PyMem T).step (.iter 1 0) =
      (.done, ⟨[.ex 0, .iter 0, .nothing], [(attrs.map Attr.name).zip fs], [(0, fs)], []⟩) := by
    simp [Spec.PyMem.step, Spec.PyMem.var, hsnd]
  rw [C96_program_partial]
  · simp only [Spec.PyMem.run, hmake, hiter, h.2]
  · refine ⟨⟨by simp, by simp⟩, ?_⟩
    rw [hmake]
    refine ⟨trivial, ?_⟩
    rw [hiter]
    exact h.1

/-- C96, membership and access agree: `k in example` exactly if `example[k]` gives a feature, for names and for
positions; and the feature is the one of that name, or at that position. -/
theorem C96_contains {T : Type} (attrs : List Attr) (fs : List T) (k : PyKey)
    (hn : (attrs.map Attr.name).Nodup) (hl : attrs.length = fs.length) :
    ∃ a b, (PyWorld.start T 2).run [.make 0 (some attrs) (fs.map some), .has 0 k, .get 1 0 k] = .ok [.done, a, b] ∧
      (a = .bool true ↔ ∃ t, b = .tensor (some t)) ∧
      (∀ n, k = .name n → ∀ (i : Nat) t x, attrs[i]? = some x → x.name = n → fs[i]? = some t → b = .tensor (some t)) ∧
      (∀ i : Nat, k = .index i → ∀ t, fs[i]? = some t → b = .tensor (some t)) := by
  generalize hz : (attrs.map Attr.name).zip fs = l
  have hmake : (Spec.PyMem.start T 2).step (.make 0 (some attrs) (fs.map some)) =
      (.done, ⟨[.ex 0, .nothing], [l], [], []⟩) := by
    simp [Spec.PyMem.step, tensors_some, named_of hn hl, Spec.PyMem.start, List.replicate, hz]
  have hfst : l.map Prod.fst = attrs.map Attr.name := by rw [← hz]; exact List.map_fst_zip (by simp [hl])
  have hsnd : l.map Prod.snd = fs := by rw [← hz]; exact List.map_snd_zip (by simp [hl])
  refine ⟨Spec.contains l k, Spec.lookup l k, ?_, ?_, ?_, ?_⟩
  · rw [C96_program_partial]
    · simp only [Spec.PyMem.run, hmake]
      simp only [Spec.PyMem.step, Spec.PyMem.var, List.getD_cons_zero]
      cases Spec.lookup l k <;> rfl
    · exact ⟨⟨by simp, by simp⟩, trivial, trivial, trivial⟩
  · cases k with
    | name n =>
      unfold Spec.contains Spec.lookup
      cases hf : l.find? (fun p => p.1 == n) with
      | none =>
        have : l.any (fun p => p.1 == n) = false := by
          rw [List.any_eq_false]; intro p hp; exact List.find?_eq_none.1 hf p hp
        simp [this, hf]
      | some p =>
        have : l.any (fun p => p.1 == n) = true :=
          List.any_eq_true.2 ⟨p, List.mem_of_find?_eq_some hf, by simpa using List.find?_some hf⟩
        simp [this, hf]
    | index i =>
      unfold Spec.contains Spec.lookup
      by_cases hi : i < 0
      · simp [hi]
      · simp only [hi, if_false]
        by_cases hlt : i.toNat < l.length
        · simp [hlt]
        · simp [hlt]
    | other => simp [Spec.contains, Spec.lookup]
  · rintro n rfl i t x hx hxn ht
    unfold Spec.lookup
    have hli : l[i]? = some (n, t) := by
      rw [← hz, List.getElem?_zip_eq_some]
      exact ⟨by simp [List.getElem?_map, hx, hxn], ht⟩
    cases hf : l.find? (fun p => p.1 == n) with
    | none =>
      have := List.find?_eq_none.1 hf _ (List.mem_of_getElem? hli)
      simp at this
    | some p =>
      have hpn : p.1 = n := by simpa using List.find?_some hf
      obtain ⟨j, hj⟩ := List.mem_iff_getElem?.1 (List.mem_of_find?_eq_some hf)
      have h1 : (l.map Prod.fst)[i]? = some n := by simp [List.getElem?_map, hli]
      have h2 : (l.map Prod.fst)[j]? = some n := by simp [List.getElem?_map, hj, hpn]
      have hij : i = j := by
        rw [hfst] at h1 h2
        obtain ⟨a, ha⟩ := List.getElem?_eq_some_iff.1 h1
        obtain ⟨b, hb⟩ := List.getElem?_eq_some_iff.1 h2
        exact (List.getElem_inj hn).1 (ha.trans hb.symm)
      subst hij
      rw [hli] at hj
      simp only [Option.some.injEq] at hj
      subst hj
      simp [hf]
  · rintro i rfl t ht
    unfold Spec.lookup
    rw [← hsnd, List.getElem?_map] at ht
    cases hli : l[i]? with
    | none => rw [hli] at ht; simp at ht
    | some p =>
      rw [hli] at ht
      simp at ht
      have : ¬ ((i : Int) < 0) := by omega
      simp [this, hli, ht]

/-- The loop over an example that has no other reference, `for feature in Example(...)` or
`for feature in reader.read_example()`: Python drops the example as soon as it has the iterator, and the iterator does
not keep it.  The first feature is read from memory that was given back, for every example that has one. -/
theorem C96_temporary_violated {T : Type} (attrs : List Attr) (t : T) (fs : List T)
    (hn : (attrs.map Attr.name).Nodup) (hl : attrs.length = (t :: fs).length) :
    (Spec.PyMem.start T 2).run [.make 0 (some attrs) ((t :: fs).map some), .iter 0 0, .next 1 0] =
      [.done, .done, .tensor (some t)] ∧
    (PyWorld.start T 2).run [.make 0 (some attrs) ((t :: fs).map some), .iter 0 0, .next 1 0] = .ub "use after free" := by
  constructor
  · have hsnd : (((attrs.map Attr.name).zip (t :: fs)).map Prod.snd) = t :: fs := List.map_snd_zip (by simp [hl])
    simp only [Spec.PyMem.run, Spec.PyMem.step, tensors_some, named_of hn hl, Spec.PyMem.start, List.replicate,
      Spec.PyMem.var]
    simp [hsnd]
  · obtain ⟨h2, _⟩ | ⟨ex, l, h2, h3, h4⟩ := make_named attrs (t :: fs)
    · rw [named_of hn hl] at h2; simp at h2
    · rw [named_of hn hl] at h2
      have hfe : ex.features = (t :: fs).map some := by
        rw [h4.1]
        simp only [Option.some.injEq] at h2
        rw [← h2]
        have : (fun p : Bytes × T => some p.2) = some ∘ Prod.snd := rfl
        rw [this, ← List.map_map, List.map_snd_zip (by simp [hl])]
      rw [List.map_cons] at h3
      simp [PyWorld.run, PyWorld.step, h3, PyWorld.start, PyWorld.setVar, PyWorld.sweep, PyWorld.held, PyWorld.var,
        List.replicate, PyIter.next, hfe]

/-- `None` in place of the schema is a null pointer that is used. -/
theorem C96_none_violated {T : Type} (n x : Nat) (fs : List (Option T)) :
    (Spec.PyMem.start T n).run [.make x none fs] = [.typeError] ∧
    (PyWorld.start T n).run [.make x none fs] = .ub "null pointer" := by
  constructor
  · simp [Spec.PyMem.run, Spec.PyMem.step]
  · simp [PyWorld.run, PyWorld.step, pyMake]

/-- `None` in place of a feature is accepted: then the example contains the name, but has no feature of that name. -/
theorem C96_null_violated {T : Type} (a : Attr) :
    (Spec.PyMem.start T 1).run [.make 0 (some [a]) [none], .has 0 (.name a.name), .get 0 0 (.name a.name)] =
      [.typeError, .typeError, .typeError] ∧
    (PyWorld.start T 1).run [.make 0 (some [a]) [none], .has 0 (.name a.name), .get 0 0 (.name a.name)] =
      .ok [.done, .bool true, .keyError] := by
  constructor
  · simp [Spec.PyMem.run, Spec.PyMem.step, Spec.tensors, Spec.PyMem.var, Spec.PyMem.start]
  · simp [PyWorld.run, PyWorld.step, pyMake, makeSchema, schemaLoop, newExample, PyWorld.start, PyWorld.setVar,
      PyWorld.sweep, PyWorld.held, PyWorld.var, pyHas, pyGet, Schema.getIndex, Example.findFeature, List.lookup]

/-! Concrete programs: two attributes, "a" and "b".  The variable is assigned again within the loop, but another one
refers to the example. -/

def pyAttrs : List Attr := [⟨[97], .int32, [1], [1], false⟩, ⟨[98], .int32, [1], [1], false⟩]

def pyProg : List (PyStep Nat) :=
  [.make 0 (some pyAttrs) [some 5, some 7], .assign 3 0, .iter 1 0, .next 2 1, .del 0, .next 2 1, .next 2 1,
   .get 0 3 (.name [98]), .get 0 3 (.index 2), .get 0 3 (.index (-1)), .has 3 (.name [99]), .len 3]

example : (Spec.PyMem.start Nat 4).AllFine pyProg := by
  simp [Spec.PyMem.AllFine, Spec.PyMem.Fine, pyProg, Spec.PyMem.step, Spec.tensors, Spec.named, pyAttrs,
    Spec.PyMem.start, Spec.PyMem.var, Spec.PyMem.Refers, Spec.lookup, Spec.contains, List.replicate]
  refine ⟨?_, ?_, ?_⟩ <;> (rintro k e t ts rfl h; simp at h; try exact h.1.symm)

example : (PyWorld.start Nat 4).run pyProg =
    .ok [.done, .done, .done, .tensor (some 5), .done, .tensor (some 7), .stopIteration, .tensor (some 7), .keyError,
      .typeError, .bool false, .num 2] := by
  decide +kernel

/-- An example that a reader has peeked is safe: the reader refers to it. -/
example : (PyWorld.start Nat 2).run
      [.make 0 (some pyAttrs) [some 5, some 7], .keep 0, .iter 0 0, .next 1 0, .next 1 0, .next 1 0] =
    .ok [.done, .done, .done, .tensor (some 5), .tensor (some 7), .stopIteration] := by
  decide +kernel

example : (pyAttrs.map Attr.name).Nodup ∧ pyAttrs.length = [5, 7].length := by decide

end Mlio
