import Verif.Spec.PySchema
import Verif.Props.Tensor

/-!
# C97: schemas in Python

Specification: `Verif/Spec/PySchema.lean`, where a schema never changes.
-/

namespace Mlio

theorem position_spec (n : Bytes) : ∀ as : List Attr,
    (∀ i : Nat, Spec.position n as = some i → ∃ a, as[i]? = some a ∧ a.name = n) ∧
    (Spec.position n as = none → ∀ a ∈ as, a.name ≠ n)
  | [] => by simp [Spec.position]
  | a :: as => by
    obtain ⟨h1, h2⟩ := position_spec n as
    unfold Spec.position
    by_cases ha : a.name = n
    · rw [if_pos ha]
      exact ⟨by rintro i h; simp at h; subst h; exact ⟨a, rfl, ha⟩, by simp⟩
    · rw [if_neg ha]
      refine ⟨?_, ?_⟩
      · intro i hi
        simp only [Option.map_eq_some_iff] at hi
        obtain ⟨j, hj, rfl⟩ := hi
        exact h1 j hj
      · intro h
        simp only [Option.map_eq_none_iff] at h
        intro b hb
        rcases List.mem_cons.1 hb with rfl | hb
        · exact ha
        · exact h2 h b hb

theorem getIndex_position {as : List Attr} {s : Schema} (h : makeSchema as = .ok s) (n : Bytes) :
    s.getIndex n = Spec.position n as := by
  obtain ⟨_, hi, ho⟩ := C43_lookup as s h n
  obtain ⟨p1, p2⟩ := position_spec n as
  cases hp : Spec.position n as with
  | none => exact ho.2 (p2 hp)
  | some i => exact (hi i).2 (p1 i hp)

theorem schema_look {T : Type} {as : List Attr} {s : Schema} (h : makeSchema as = .ok s) :
    ∀ (prog : List (SchemaStep T)) (cap gen : Nat) (refs : List AttrRef) (vars : List Attr),
    refs.map (fun r => (r.gen, as[r.i]?)) = vars.map (fun a => (gen, some a)) → (∀ p ∈ prog, Spec.Looks p) →
    SchemaWorld.run ⟨⟨s, cap, gen⟩, refs⟩ prog = .ok (Spec.schemaRun as vars prog)
  | [], _, _, _, _, _, _ => rfl
  | p :: ps, cap, gen, refs, vars, hr, hp => by
    have ha := (C43_lookup as s h []).1
    have ih := schema_look h ps cap gen
    have hps : ∀ q ∈ ps, Spec.Looks q := fun q hq => hp q (by simp [hq])
    have step : ∀ (a : SchemaAns T) refs' vars', SchemaWorld.step ⟨⟨s, cap, gen⟩, refs⟩ p = .ok (a, ⟨⟨s, cap, gen⟩, refs'⟩) →
        Spec.schemaStep as vars p = (a, vars') →
        refs'.map (fun r => (r.gen, as[r.i]?)) = vars'.map (fun a => (gen, some a)) →
        SchemaWorld.run ⟨⟨s, cap, gen⟩, refs⟩ (p :: ps) = .ok (Spec.schemaRun as vars (p :: ps)) := by
      intro a refs' vars' h1 h2 h3
      simp only [SchemaWorld.run, Spec.schemaRun, h1, h2, ih refs' vars' h3 hps]
    cases p with
    | attrs => exact step _ refs vars (by simp [SchemaWorld.step, ha]) rfl hr
    | index n => exact step _ refs vars (by simp [SchemaWorld.step, getIndex_position h]) rfl hr
    | eq bs =>
      refine step (.bool (as = bs)) refs vars ?_ rfl hr
      have : s.eq ⟨bs, []⟩ = decide (as = bs) := by
        rw [Bool.eq_iff_iff, (C43_equal_hash s ⟨bs, []⟩ ⟨fun _ => 0, fun _ => 0, fun _ => 0, fun _ => 0, fun _ => 0⟩).1]
        simp [ha]
      simp [SchemaWorld.step, this]
    | ref i =>
      by_cases hi : i < as.length
      · refine step .done (refs ++ [⟨gen, i⟩]) (vars ++ [as[i]]) ?_ ?_ ?_
        · simp [SchemaWorld.step, ha, hi]
        · simp [Spec.schemaStep, hi]
        · simp [hr, hi]
      · exact step .indexError refs vars (by simp [SchemaWorld.step, ha, hi]) (by simp [Spec.schemaStep, hi]) hr
    | look r =>
      have hq : (refs.map (fun r => (r.gen, as[r.i]?)))[r]? = (vars.map (fun a => (gen, some a)))[r]? := by rw [hr]
      simp only [List.getElem?_map] at hq
      cases hv : vars[r]? with
      | none =>
        rw [hv] at hq
        simp at hq
        have hq' : refs[r]? = none := by simpa using hq
        exact step .indexError refs vars (by simp [SchemaWorld.step, hq']) (by simp [Spec.schemaStep, hv]) hr
      | some a =>
        rw [hv] at hq
        simp only [Option.map_some, Option.map_eq_some_iff, Prod.mk.injEq] at hq
        obtain ⟨q, h1, h2, h3⟩ := hq
        exact step (.attr a) refs vars (by simp [SchemaWorld.step, h1, h2, ha, h3]) (by simp [Spec.schemaStep, hv]) hr
    | feature fs n =>
      by_cases hl : as.length = fs.length
      · refine step (.feature ((Spec.position n as).bind fun i => fs[i]?)) refs vars ?_ ?_ hr
        · have he : newExample s fs = .ok ⟨s, fs⟩ := by simp [newExample, ha, hl]
          have hf : Example.findFeature ⟨s, fs⟩ n = .ok ((Spec.position n as).bind fun i => fs[i]?) := by
            unfold Example.findFeature
            simp only [getIndex_position h]
            cases hp : Spec.position n as with
            | none => rfl
            | some i =>
              obtain ⟨a, h1, _⟩ := (position_spec n as).1 i hp
              have := (List.getElem?_eq_some_iff.1 h1).1
              rw [hl] at this
              simp [this]
          simp [SchemaWorld.step, he, hf]
        · simp [Spec.schemaStep, hl]
      · exact step .valueError refs vars (by simp [SchemaWorld.step, newExample, ha, hl])
          (by simp [Spec.schemaStep, hl]) hr
    | append a => exact (hp (.append a) (by simp)).elim
    | assign i a => exact (hp (.assign i a) (by simp)).elim
    | pop => exact (hp .pop (by simp)).elim
    | clear => exact (hp .clear (by simp)).elim

/-- C97: as long as a program only looks at a schema, all it sees is the list of attributes that the schema was made of:
the list itself, the positions of names, equality, the attributes it keeps in variables, and the features of examples.
Missing: the list that Python gets can be changed (`C97_index_violated` and below). -/
theorem C97_program_partial {T : Type} (as : List Attr) (prog : List (SchemaStep T))
    (hn : (as.map Attr.name).Nodup) (hp : ∀ p ∈ prog, Spec.Looks p) :
    schemaProgram as prog = .ok (Spec.schemaRun as [] prog) := by
  obtain ⟨s, hs⟩ := (C43_accepted_iff as).1.2 hn
  simp only [schemaProgram, hs]
  exact schema_look hs prog _ 0 [] [] rfl hp

/-- The statements that change a schema are not refused: the list of attributes becomes another one, for every schema. -/
theorem C97_index_violated {T : Type} (as : List Attr) (hn : (as.map Attr.name).Nodup) (i : Nat) (a : Attr)
    (ha : as[i]? = some a) :
    Spec.schemaRun as [] [.clear, .attrs, .index a.name] =
      ([.notAllowed, .attrs as, .index (Spec.position a.name as)] : List (SchemaAns T)) ∧
    schemaProgram as [.clear, .attrs, .index a.name] = .ok ([.done, .attrs [], .index (some i)] : List (SchemaAns T)) := by
  obtain ⟨s, hs⟩ := (C43_accepted_iff as).1.2 hn
  have hi : s.getIndex a.name = some i := ((C43_lookup as s hs a.name).2.1 i).2 ⟨a, ha, rfl⟩
  refine ⟨rfl, ?_⟩
  simp only [Schema.getIndex] at hi
  simp [schemaProgram, hs, SchemaWorld.run, SchemaWorld.step, PySchema.put, Schema.getIndex, hi]

/-- After that, an example without features is accepted, and asking it for a name of the schema reads outside of its
vector of features. -/
theorem C97_example_violated {T : Type} (as : List Attr) (hn : (as.map Attr.name).Nodup) (a : Attr) (ha : a ∈ as) :
    schemaProgram (T := T) as [.clear, .feature [] a.name] = .ub "index out of range" := by
  obtain ⟨s, hs⟩ := (C43_accepted_iff as).1.2 hn
  obtain ⟨i, hi⟩ := List.mem_iff_getElem?.1 ha
  have hi : s.getIndex a.name = some i := ((C43_lookup as s hs a.name).2.1 i).2 ⟨a, hi, rfl⟩
  simp only [Schema.getIndex] at hi
  simp [schemaProgram, hs, SchemaWorld.run, SchemaWorld.step, PySchema.put, newExample, Example.findFeature,
    Schema.getIndex, hi]

/-- An attribute in a variable is in memory that was given back, once one attribute was appended. -/
theorem C97_reference_violated {T : Type} (as : List Attr) (hn : (as.map Attr.name).Nodup) (i : Nat)
    (hi : i < as.length) (b : Attr) :
    schemaProgram (T := T) as [.ref i, .append b, .look 0] = .ub "use after free" := by
  obtain ⟨s, hs⟩ := (C43_accepted_iff as).1.2 hn
  have ha := (C43_lookup as s hs []).1
  simp [schemaProgram, hs, SchemaWorld.run, SchemaWorld.step, PySchema.put, PySchema.append, ha, hi]

/-- The last attribute in a variable is destroyed by `pop`, and names a position that is not in the list any more. -/
theorem C97_pop_violated {T : Type} (as : List Attr) (hn : (as.map Attr.name).Nodup) (a : Attr) (ha' : as.getLast? = some a) :
    schemaProgram (T := T) as [.pop, .attrs, .index a.name] = .ok [.done, .attrs as.dropLast, .index (some (as.length - 1))] ∧
    schemaProgram (T := T) as [.ref (as.length - 1), .pop, .look 0] = .ub "destroyed element" := by
  obtain ⟨s, hs⟩ := (C43_accepted_iff as).1.2 hn
  have ha := (C43_lookup as s hs []).1
  have hne : as ≠ [] := by rintro rfl; simp at ha'
  have hl : 0 < as.length := List.length_pos_iff.2 hne
  have hi : s.getIndex a.name = some (as.length - 1) :=
    ((C43_lookup as s hs a.name).2.1 _).2 ⟨a, by rw [← List.getLast?_eq_getElem?]; exact ha', rfl⟩
  simp only [Schema.getIndex] at hi
  constructor
  · simp [schemaProgram, hs, SchemaWorld.run, SchemaWorld.step, PySchema.put, Schema.getIndex, hi, ha, hne]
  · have hlt : as.length - 1 < as.length := by omega
    simp [schemaProgram, hs, SchemaWorld.run, SchemaWorld.step, PySchema.put, ha, hne, hlt]

/-- An attribute in a variable becomes another attribute, if the element of the list is assigned. -/
theorem C97_alias_violated {T : Type} (as : List Attr) (hn : (as.map Attr.name).Nodup) (i : Nat)
    (hi : i < as.length) (b : Attr) :
    schemaProgram (T := T) as [.ref i, .assign i b, .look 0] = .ok [.done, .done, .attr b] := by
  obtain ⟨s, hs⟩ := (C43_accepted_iff as).1.2 hn
  have ha := (C43_lookup as s hs []).1
  simp [schemaProgram, hs, SchemaWorld.run, SchemaWorld.step, PySchema.put, ha, hi]

/-- The schema of a reader is the same object: once an attribute was appended to it, the reader can make no example
any more from the features it decodes, one for each attribute of the dataset. -/
theorem C97_reader_violated {T : Type} (as : List Attr) (hn : (as.map Attr.name).Nodup) (b : Attr) (fs : List T)
    (hl : as.length = fs.length) (n : Bytes) :
    schemaProgram as [.append b, .feature fs n] = .ok [.done, .valueError] := by
  obtain ⟨s, hs⟩ := (C43_accepted_iff as).1.2 hn
  have ha := (C43_lookup as s hs []).1
  have : ¬ as.length + 1 = fs.length := by omega
  simp [schemaProgram, hs, SchemaWorld.run, SchemaWorld.step, PySchema.put, PySchema.append, ha, newExample, this]

/-! Concrete cases. -/

def schemaAttrs : List Attr := [⟨[97], .int32, [1], [1], false⟩, ⟨[98], .int32, [2, 3], [3, 1], false⟩]

example : (schemaAttrs.map Attr.name).Nodup ∧
    ∀ p ∈ ([.ref 1, .index [98], .look 0, .feature [5, 7] [98], .feature [5] [98], .eq schemaAttrs] :
      List (SchemaStep Nat)), Spec.Looks p := by
  refine ⟨by decide, ?_⟩
  simp [Spec.Looks]

example : schemaProgram schemaAttrs [.ref 1, .index [98], .look 0, .feature [5, 7] [98], .feature [5] [98],
      .eq schemaAttrs, .ref 2] =
    .ok [.done, .index (some 1), .attr ⟨[98], .int32, [2, 3], [3, 1], false⟩, .feature (some 7), .valueError, .bool true,
      .indexError] := by decide +kernel

end Mlio
