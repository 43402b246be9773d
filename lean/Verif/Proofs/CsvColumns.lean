import Verif.Spec.CsvColumns
import Verif.Proofs.CsvReader
import Verif.Props.CsvSchema

/-! # The columns of a CSV reader: proofs -/

namespace Mlio
open Spec Machine

variable {V : Type}

theorem columns_flags (parse : DataType → Bytes → Option V) (zero : DataType → V) (o : CsvOpts) :
    ∀ (ns : List Bytes) (ts : List DataType) (i : Nat), ns.length = ts.length →
    ((ts.zip ((flagsFrom o i (ns.zip ts)).1.zip (flagsFrom o i (ns.zip ts)).2)).map fun c =>
      ({ ignore := c.2.1, parse := (match c.2.2 with | some t => parse t | none => fun _ => none), zero := zero c.1 } : CsvCol V)) =
    ((ns.zip ts).zipIdx i).map fun c =>
      if Selected o c.2 c.1.1 then { ignore := false, parse := parse c.1.2, zero := zero c.1.2 }
      else { ignore := true, parse := fun _ => none, zero := zero c.1.2 }
  | [], [], _, _ => rfl
  | [], _ :: _, _, h => by simp at h
  | _ :: _, [], _, h => by simp at h
  | n :: ns, t :: ts, i, h => by
    have ih := columns_flags parse zero o ns ts (i + 1) (by simpa using h)
    simp only [List.zip_cons_cons, flagsFrom, List.map_cons, List.zipIdx_cons]
    rw [ih]
    congr 1
    by_cases hs : shouldSkip o i n = true
    · have : ¬ Selected o i n := by rw [← shouldSkip_iff]; simp [hs]
      simp [hs, this]
    · have hs' : shouldSkip o i n = false := by simpa using hs
      have := (shouldSkip_iff o i n).1 hs'
      simp [hs', this]

theorem csvColumns_eq (parse : DataType → Bytes → Option V) (zero : DataType → V) (o : CsvOpts) (s : CsvState) (names : List Bytes)
    (hl : names.length = s.types.length) (h1 : s.ignores = (flagsFrom o 0 (names.zip s.types)).1)
    (h2 : s.parsers = (flagsFrom o 0 (names.zip s.types)).2) : csvColumns parse zero s = columnsFor parse zero o names s.types := by
  unfold csvColumns columnsFor
  rw [h1, h2]
  exact columns_flags parse zero o names s.types 0 hl

theorem filter_columns (parse : DataType → Bytes → Option V) (zero : DataType → V) (o : CsvOpts) :
    ∀ (cs : List (Bytes × DataType)) (i : Nat),
    ((cs.zipIdx i).map fun c =>
      (if Selected o c.2 c.1.1 then { ignore := false, parse := parse c.1.2, zero := zero c.1.2 }
      else { ignore := true, parse := fun _ => none, zero := zero c.1.2 } : CsvCol V)).filter (fun c => !c.ignore) =
    (usedFrom o i cs).map fun c => { ignore := false, parse := parse c.2, zero := zero c.2 }
  | [], _ => rfl
  | c :: cs, i => by
    have ih := filter_columns parse zero o cs (i + 1)
    simp only [List.zipIdx_cons, List.map_cons, usedFrom]
    by_cases hs : Selected o i c.1
    · simp [hs, ih]
    · simp [hs, ih]

theorem renamed_types (batch : Nat) : ∀ (cs : List (Bytes × DataType)) (as : List Attr) (seen : List Bytes),
    Renamed batch seen cs as → as.map Attr.dt = cs.map Prod.snd
  | [], [], _, _ => rfl
  | c :: cs, a :: as, seen, h => by
    obtain ⟨h1, _, _, _, h5⟩ := h
    rw [List.map_cons, List.map_cons, renamed_types batch cs as _ h5, h1]
    rfl
  | [], _ :: _, _, h => h.elim
  | _ :: _, [], _, h => h.elim

/-- What making the schema leaves. -/
theorem makeCsvSchema_ok (o : CsvOpts) (batch : Nat) (s : CsvState) (hl : s.names.length = s.types.length) (sch : Schema) (s' : CsvState)
    (h : makeCsvSchema o batch s = (.ok sch, s')) :
    s' = { s with ignores := s.ignores ++ (flagsFrom o 0 (s.names.zip s.types)).1,
                  parsers := s.parsers ++ (flagsFrom o 0 (s.names.zip s.types)).2 } ∧
    sch.attrs.map Attr.dt = (used o s.names s.types).map Prod.snd ∧
    (((used o s.names s.types).map Prod.fst).Nodup → sch.attrs = (used o s.names s.types).map (columnAttr batch)) := by
  by_cases hd : o.dedupe = true
  · obtain ⟨as, sch', h1, h2, h3, h4⟩ := makeCsvSchema_dedupe o hd batch s hl
    rw [h4] at h
    cases h
    exact ⟨rfl, by rw [h3]; exact renamed_types batch _ _ _ h1, fun hn => by
      rw [h3]; exact renamed_distinct batch _ _ _ h1 hn (by simp)⟩
  · obtain ⟨h1, h2⟩ := makeCsvSchema_plain o (by simpa using hd) batch s hl
    by_cases hn : ((used o s.names s.types).map Prod.fst).Nodup
    · obtain ⟨sch', h3, h4⟩ := h1 hn
      rw [h4] at h
      cases h
      refine ⟨rfl, ?_, fun _ => h3⟩
      rw [h3, List.map_map]
      rfl
    · rw [h2 hn] at h
      cases h

/-- The types found in the first row, or those without rows. -/
def FoundTypes (F64 : FloatLib) (o : CsvOpts) (s : CsvState) : Option Bytes → List DataType → Prop
  | none, found => found = s.names.map (fun _ => o.defaultType.getD .string) ∧ s.names ≠ []
  | some row, found => found = rowTypes F64 o row ∧ (tokenize o.tok row).2 = .ok ()

/-- What a first inference that succeeds has gone through. -/
theorem inferSchema_ok (F64 : FloatLib) (o : CsvOpts) (batch : Nat) (s : CsvState) (inst : Option Bytes) (sch : Schema) (s' : CsvState)
    (hty : s.types = []) (h : inferSchema F64 o batch s inst = (.ok (some sch), s')) :
    ∃ found names types, FoundTypes F64 o s inst found ∧
      names = (if s.names = [] then (List.range found.length).map (fun i => prefixed o (decimal (i + 1))) else s.names) ∧
      names.length = found.length ∧ OverridesMatch o names ∧
      applyOverrides o { s with names := names, types := found } = (.ok (), { s with names := names, types := types }) ∧
      types.length = found.length ∧
      makeCsvSchema o batch { s with names := names, types := types } = (.ok sch, s') := by
  unfold inferSchema at h
  split at h
  · cases h
  · rename_i hc
    have hfound : ∃ found, inferColumnTypes F64 o s inst = (.ok (), { s with types := found }) ∧ FoundTypes F64 o s inst found := by
      cases inst with
      | none =>
        refine ⟨_, by simp [inferColumnTypes, hty], rfl, ?_⟩
        intro hx
        simp [hx] at hc
      | some row =>
        cases ht : (tokenize o.tok row).2 with
        | ok u => exact ⟨_, by simp [inferColumnTypes, hty, ht, rowTypes], rfl, ht⟩
        | err e => simp [inferColumnTypes, ht] at h
        | ub e => simp [inferColumnTypes, ht] at h
    obtain ⟨found, e1, hf⟩ := hfound
    simp only [e1] at h
    have hnames : ∃ names, setOrValidateNames o { s with types := found } inst = (.ok (), { s with types := found, names := names }) ∧
        names = (if s.names = [] then (List.range found.length).map (fun i => prefixed o (decimal (i + 1))) else s.names) ∧
        names.length = found.length := by
      by_cases hn : s.names = []
      · exact ⟨(List.range found.length).map (fun i => prefixed o (decimal (i + 1))), by simp [setOrValidateNames, hn], by simp [hn], by simp⟩
      · by_cases hl : s.names.length = found.length
        · exact ⟨s.names, by simp [setOrValidateNames, hn, hl], by simp [hn], hl⟩
        · cases inst <;> simp [setOrValidateNames, hn, hl] at h
    obtain ⟨names, e2, hn, hl⟩ := hnames
    simp only [e2] at h
    obtain ⟨o1, o2⟩ := applyOverrides_spec o { s with types := found, names := names } hl
    by_cases hm : OverridesMatch o names
    · obtain ⟨types, e3, hlt, _⟩ := o1 hm
      simp only [e3] at h
      refine ⟨found, names, types, hf, hn, hl, hm, e3, hlt, ?_⟩
      split at h
      · next sch' s4 hmk => cases h; exact hmk
      · cases h
      · cases h
    · obtain ⟨ts, e3, _⟩ := o2 hm
      simp [e3] at h

/-- When a first inference succeeds. -/
theorem inferSchema_succeeds (F64 : FloatLib) (o : CsvOpts) (batch : Nat) (s : CsvState) (inst : Option Bytes) (hne : s.names ≠ [])
    (hty : s.types = []) (hnd : s.names.Nodup) (hm : OverridesMatch o s.names)
    (hrow : ∀ row, inst = some row → (tokenize o.tok row).2 = .ok () ∧ (tokenize o.tok row).1.length = s.names.length) :
    ∃ sch, (inferSchema F64 o batch s inst).1 = .ok (some sch) := by
  have hfound : ∃ found, inferColumnTypes F64 o s inst = (.ok (), { s with types := found }) ∧ s.names.length = found.length := by
    cases inst with
    | none => exact ⟨_, by simp [inferColumnTypes, hty]; rfl, by simp⟩
    | some row =>
      obtain ⟨h1, h2⟩ := hrow row rfl
      exact ⟨rowTypes F64 o row, by simp [inferColumnTypes, hty, h1, rowTypes], by simp [rowTypes, h2]⟩
  obtain ⟨found, e1, hl⟩ := hfound
  have e2 : setOrValidateNames o { s with types := found } inst = (.ok (), { s with types := found }) := by
    simp [setOrValidateNames, hne, hl]
  have e3 := applyOverrides_nodup o { s with types := found } hl hnd hm
  have hl' : s.names.length = (overriddenTypes o s.names found).length := by simp [overriddenTypes, hl]
  have hun := used_nodup o s.names (overriddenTypes o s.names found) hnd (by omega)
  have e4 : ∃ sch s4, makeCsvSchema o batch { s with types := overriddenTypes o s.names found } = (.ok sch, s4) := by
    by_cases hd : o.dedupe = true
    · obtain ⟨sch, s', h, _⟩ := C33_distinct_names_kept o batch { s with types := overriddenTypes o s.names found } hd hl' hun
      exact ⟨sch, s', h⟩
    · obtain ⟨sch, s', h, _⟩ := (C33_without_dedupe o batch { s with types := overriddenTypes o s.names found } (by simpa using hd) hl').1 hun
      exact ⟨sch, s', h⟩
  obtain ⟨sch, s4, e4⟩ := e4
  refine ⟨sch, ?_⟩
  unfold inferSchema
  rw [if_neg (by simp [hne]), e1]
  simp only [e2, e3, e4]

theorem prefixed_eq (o : CsvOpts) (v : Bytes) : prefixed o v = o.namePrefix ++ v := by
  unfold prefixed
  by_cases hp : o.namePrefix = []
  · simp [hp]
  · rw [if_neg (by simpa using hp)]

theorem numbered_nodup (o : CsvOpts) (n : Nat) : ((List.range n).map fun i => o.namePrefix ++ decimal (i + 1)).Nodup := by
  refine List.Pairwise.map _ ?_ (List.nodup_range (n := n))
  intro a b hab h
  have := decimal_inj (List.append_cancel_left h)
  omega

theorem openAll_given (o : CsvOpts) (rm : Machine Record) (ho : o.headerRow = none) : ∀ (rs : List (Res rm.σ)) (s : CsvState),
    (openAll o rm s rs).2.names = s.names
  | [], _ => rfl
  | r :: rs, s => by
    simp only [openAll]
    have : (makeRecordReader o rm s r).2 = s := by
      cases r <;> simp [makeRecordReader, ho]
    rw [this]
    exact openAll_given o rm ho rs s

theorem holds_take {rm : Machine Record} : ∀ (n : Nat) (rs : List rm.σ) (xss : List (List Record)), Holds rm rs xss →
    Holds rm (rs.take n) (xss.take n)
  | 0, _, _, _ => by simp [Holds]
  | n + 1, [], [], _ => by simp [Holds]
  | n + 1, r :: rs, xs :: xss, h => ⟨h.1, holds_take n rs xss h.2⟩
  | _ + 1, [], _ :: _, h => h.elim
  | _ + 1, _ :: _, [], h => h.elim

/-- The names of the columns when stores have been opened. -/
theorem openedNames_known {m : SrcClass} {p : CsvParams} {o : CsvOpts} (hp : Plainly p o) (files : List (CsvFile m))
    (hg : ∀ f ∈ files, f.Good p) (hhead : o.columnNames = [] → ∀ h f, o.headerRow = some h → files.head? = some f → h < f.table.values.length)
    (rm : Machine Record) (rs : List rm.σ)
    (hh : Holds rm rs (files.map fun f => (rowLines p.delimiter p.quote f.table).map fun b => ⟨0, b⟩)) (n : Nat) :
    openedNames o rm (rs.map Res.ok) (n + 1) = knownNames o (files.map fun f => f.table) := by
  unfold openedNames
  rw [← List.map_take]
  have hk := holds_take (n + 1) rs _ hh
  have hok := csvFiles_headers (o := o) hp files hg
  cases ho : o.headerRow with
  | none =>
    rw [openAll_given o rm ho]
    simp only [CsvState.fresh, knownNames, ho]
    split
    · rfl
    · next h => simpa using h
  | some h =>
    have hok' : ∀ xs ∈ (files.map fun f => (rowLines p.delimiter p.quote f.table).map fun b => (⟨0, b⟩ : Record)).take (n + 1), HeaderOk o h xs :=
      fun xs hx => hok h ho xs (List.mem_of_mem_take hx)
    by_cases hc : o.columnNames = []
    · cases files with
      | nil =>
        cases rs with
        | nil => simp [openAll, CsvState.fresh, knownNames, hc]
        | cons r rs => exact hh.elim
      | cons f fs =>
        cases rs with
        | nil => exact hh.elim
        | cons r rs =>
          have hlt := hhead hc h f ho rfl
          have hlt' : h < (rowLines p.delimiter p.quote f.table).length := by
            have := congrArg List.length (sheet_fields hp (hg f (by simp)).sheet).1
            rw [List.length_map] at this
            omega
          rw [List.take_succ_cons]
          simp only [List.map_cons, List.take_succ_cons] at hk hok'
          rw [C35_names o rm h r _ _ _ ⟨0, (rowLines p.delimiter p.quote f.table)[h]⟩ ho hc hk hok' (by simp [hlt'])]
          have hrow := (sheet_fields hp (hg f (by simp)).sheet).2 _ (List.getElem_mem hlt')
          have hval : f.table.values[h]? = some (rowFields o.tok (rowLines p.delimiter p.quote f.table)[h]) := by
            rw [← (sheet_fields hp (hg f (by simp)).sheet).1]
            simp [hlt']
          simp only [hrow, knownNames, hc, ho, List.map_cons, ne_eq, not_true_eq_false, if_false]
          rw [hval, List.map_map]
          rfl
    · rw [openAll_names o rm h ho _ _ _ hk hok' (by simpa [CsvState.fresh] using hc)]
      simp [CsvState.fresh, knownNames, hc]

end Mlio
