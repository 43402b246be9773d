import Verif.Proofs.CsvColumns

/-! # C34: the columns that are read are those of the schema -/

namespace Mlio
open Spec Machine

variable {V : Type}

/-- **C34**: when the schema has been inferred (in the first attempt), there is a column for every name and every value of the first row, and those that are
not ignored are, in order, the attributes of the schema: parsed, and filled up, by their types – also if columns are
renamed. -/
theorem C34_columns (F64 : FloatLib) (o : CsvOpts) (batch : Nat) (s s' : CsvState) (inst : Option Bytes) (sch : Schema)
    (hty : s.types = []) (hig : s.ignores = []) (hpa : s.parsers = [])
    (h : inferSchema F64 o batch s inst = (.ok (some sch), s'))
    (parse : DataType → Bytes → Option V) (zero : DataType → V) :
    (csvColumns parse zero s').filter (fun c => !c.ignore) =
      sch.attrs.map (fun a => { ignore := false, parse := parse a.dt, zero := zero a.dt }) ∧
    (csvColumns parse zero s').length = s'.names.length ∧
    ∀ row, inst = some row → (csvColumns parse zero s').length = (tokenize o.tok row).1.length := by
  obtain ⟨found, names, types, h1, h2, h3, h4, h5, h6, h7⟩ := inferSchema_ok F64 o batch s inst sch s' hty h
  have hl : names.length = types.length := by omega
  obtain ⟨rfl, k2, _⟩ := makeCsvSchema_ok o batch _ hl sch s' h7
  rw [csvColumns_eq parse zero o _ names hl (by simp [hig]) (by simp [hpa])]
  refine ⟨?_, by simp [columnsFor, hl], ?_⟩
  · unfold columnsFor
    rw [filter_columns]
    have := congrArg (List.map fun t => ({ ignore := false, parse := parse t, zero := zero t } : CsvCol V)) k2
    rw [List.map_map, List.map_map] at this
    exact this.symm
  · rintro row rfl
    have : found.length = (tokenize o.tok row).1.length := by rw [h1.1]; simp [rowTypes]
    simp [columnsFor, hl, h6, this]

/-- The hypotheses of `C34_columns` hold: the columns `a`, `b`, `a` are renamed and the second is not used. -/
example : ∃ sch s', inferSchema noFloat { useIndices := [0, 2] } 8 { names := [[97], [98], [97]] } (some [49, 44, 50, 44, 120]) = (.ok (some sch), s') ∧
    sch.attrs.map (fun a => (a.name, a.dt)) = [([97], .int64), ([97, 95, 49], .string)] ∧
    (csvColumns (fun t b => some (t, b)) (fun t => (t, [])) s').map (fun c => (c.ignore, c.parse [55], c.zero)) =
      [(false, some (.int64, [55]), (.int64, [])), (true, none, (.int64, [])), (false, some (.string, [55]), (.string, []))] :=
  ⟨_, _, rfl, by decide, by decide⟩

/-- **C34**, partial: with names that differ, the columns and the schema are those of the specification: a column is
read if it is selected, with the type that is given for it or found.

Partial: of several columns with the same name an override by name reaches only the first, see `C34_equal_names`. -/
theorem C34_columns_types_partial (F64 : FloatLib) (o : CsvOpts) (batch : Nat) (s s' : CsvState) (inst : Option Bytes) (sch : Schema)
    (hty : s.types = []) (hig : s.ignores = []) (hpa : s.parsers = []) (hnd : s.names.Nodup) (row : Option (List Bytes))
    (hrow : inst.map (fun b => (tokenize o.tok b).1) = row.map fun vs => vs.map (cutField o.tok.maxField))
    (h : inferSchema F64 o batch s inst = (.ok (some sch), s'))
    (parse : DataType → Bytes → Option V) (zero : DataType → V) :
    s'.names = namesFor o s.names row ∧
    csvColumns parse zero s' = columnsFor parse zero o s'.names (typesFor F64 o s'.names row) ∧
    sch.attrs = (used o s'.names (typesFor F64 o s'.names row)).map (columnAttr batch) := by
  obtain ⟨found, names, types, h1, h2, h3, h4, h5, h6, h7⟩ := inferSchema_ok F64 o batch s inst sch s' hty h
  have hl : names.length = types.length := by omega
  obtain ⟨rfl, _, k3⟩ := makeCsvSchema_ok o batch _ hl sch s' h7
  have hnum : ((List.range found.length).map fun i => prefixed o (decimal (i + 1))) =
      (List.range found.length).map fun i => o.namePrefix ++ decimal (i + 1) := by
    apply List.map_congr_left
    intro i _
    exact prefixed_eq o _
  have hnd' : names.Nodup := by
    rw [h2]
    split
    · rw [hnum]; exact numbered_nodup o _
    · exact hnd
  have hov := applyOverrides_nodup o { s with names := names, types := found } h3 hnd' h4
  rw [h5] at hov
  have htypes : types = overriddenTypes o names found := congrArg CsvState.types (congrArg Prod.snd hov)
  have hfound : found = (match row with
      | some vs => vs.map fun v => o.defaultType.getD (inferDataType F64 (cutField o.tok.maxField v).1)
      | none => names.map fun _ => o.defaultType.getD .string) := by
    cases inst with
    | none =>
      cases row with
      | some vs => simp at hrow
      | none =>
        obtain ⟨h1, hne⟩ := h1
        rw [h1, h2, if_neg hne]
    | some b =>
      cases row with
      | none => simp at hrow
      | some vs =>
        simp only [Option.map_some, Option.some.injEq] at hrow
        rw [h1.1]
        simp only [rowTypes, hrow, List.map_map]
        rfl
  have hflen : s.names = [] → found.length = (row.getD []).length := by
    intro he
    cases row with
    | some vs => rw [hfound]; simp
    | none =>
      cases inst with
      | none => exact absurd he h1.2
      | some b => simp at hrow
  have htf : types = typesFor F64 o names row := by
    rw [htypes, hfound]
    cases row <;> rfl
  refine ⟨?_, ?_, ?_⟩
  · show names = namesFor o s.names row
    unfold namesFor
    rw [h2]
    by_cases he : s.names = []
    · rw [if_pos he, hnum, hflen he]
      simp [he]
    · rw [if_neg he, if_pos he]
  · rw [csvColumns_eq parse zero o _ names hl (by simp [hig]) (by simp [hpa])]
    show columnsFor parse zero o names types = _
    rw [htf]
  · rw [← htf]
    exact k3 (used_nodup o names types hnd' (by omega))

/-- The hypotheses of `C34_columns_types_partial` hold, with and without a first row. -/
example : ([[97], [98]] : List Bytes).Nodup ∧
    (∃ sch s', inferSchema noFloat { types := [([98], .float32)] } 8 { names := [[97], [98]] } (some [49, 44, 50]) = (.ok (some sch), s')) ∧
    (tokenize {} [49, 44, 50]).1 = [[49], [50]].map (cutField none) ∧ typesFor noFloat { types := [([98], .float32)] } [[97], [98]] (some [[49], [50]]) = [.int64, .float32] ∧
    (∃ sch s', inferSchema noFloat { types := [([98], .float32)] } 8 { names := [[97], [98]] } none = (.ok (some sch), s')) ∧
    typesFor noFloat { types := [([98], .float32)] } [[97], [98]] none = [.string, .float32] ∧
    namesFor {} [] (some [[49], [50]]) = [[49], [50]] :=
  ⟨by decide, ⟨_, _, rfl⟩, by decide, by decide, ⟨_, _, rfl⟩, by decide, by decide⟩

end Mlio
