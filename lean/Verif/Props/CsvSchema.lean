import Verif.Proofs.CsvSchema
import Verif.Props.Instances
import Verif.Props.Number

/-!
# C33-C36: header, schema and column names of CSV datasets
-/

namespace Mlio
open Spec

/-! ## C33 -/

/-- C33: with `dedupe_column_names` the schema can always be made; it has one attribute per selected column, in order,
all attribute names are different, each extends the name of its column, and a name is kept unless an earlier
column has got it.

Partial: "the first occurrence keeps its own name" fails if an earlier column was renamed to that name, see
`C33_first_occurrence_violated`. -/
theorem C33_unique_names_partial (o : CsvOpts) (batch : Nat) (s : CsvState) (hd : o.dedupe = true)
    (hl : s.names.length = s.types.length) :
    ∃ sch s', makeCsvSchema o batch s = (.ok sch, s') ∧ (sch.attrs.map Attr.name).Nodup ∧
      sch.attrs.length = (used o s.names s.types).length ∧ Renamed batch [] (used o s.names s.types) sch.attrs := by
  obtain ⟨as, sch, h1, h2, h3, h4⟩ := makeCsvSchema_dedupe o hd batch s hl
  rw [← h3] at h1
  exact ⟨sch, _, h4, (renamed_nodup batch _ _ _ h1).1, renamed_length batch _ _ _ h1, h1⟩

/-- C33: names that are different already are kept. -/
theorem C33_distinct_names_kept (o : CsvOpts) (batch : Nat) (s : CsvState) (hd : o.dedupe = true)
    (hl : s.names.length = s.types.length) (hn : ((used o s.names s.types).map Prod.fst).Nodup) :
    ∃ sch s', makeCsvSchema o batch s = (.ok sch, s') ∧
      sch.attrs = (used o s.names s.types).map (columnAttr batch) := by
  obtain ⟨as, sch, h1, h2, h3, h4⟩ := makeCsvSchema_dedupe o hd batch s hl
  exact ⟨sch, _, h4, by rw [h3]; exact renamed_distinct batch _ _ _ h1 hn (by simp)⟩

/-- C33, as documented (`csv_reader.h` 62-64): columns `X`, …, `X` become `X`, `X_1`, `X_2`, …, for every name
and every number of columns. -/
theorem C33_documented_renaming (o : CsvOpts) (batch : Nat) (s : CsvState) (hd : o.dedupe = true)
    (hi : o.useIndices = []) (hc : o.useColumns = []) (X : Bytes) (n : Nat)
    (hn : s.names = List.replicate (n + 1) X) (hl : s.types.length = n + 1) :
    ∃ sch s', makeCsvSchema o batch s = (.ok sch, s') ∧
      sch.attrs.map Attr.name = X :: (List.range' 1 n).map (fun j => X ++ 95 :: decimal j) := by
  obtain ⟨as, h1, h2⟩ := initLoop_dedupe o hd batch s.names s.types 0 [] (by rw [hn, hl]; simp)
  obtain ⟨as', sch, _, h4, h5, h6⟩ := makeCsvSchema_dedupe o hd batch s (by rw [hn, hl]; simp)
  have hda : dedupeAll [] s.names = some (X :: (List.range' 1 n).map (fun j => X ++ 95 :: decimal j)) := by
    rw [hn, List.replicate_succ, dedupeAll]
    have : dedupeName (([] : List (Bytes × Nat)).length + 1) [] X = some (X, [(X, 1)]) := rfl
    rw [this]
    simp only
    rw [dedupe_same X n 1 [(X, 1)] (by omega) (by simp [List.lookup]) (by simp [keysOf])]
    rfl
  have hnames := initLoop_dedupeAll o hd hi hc batch s.names s.types 0 [] as _ _ (by rw [hn, hl]; simp) h1 hda
  have has : makeSchema as = .ok sch ∧ sch.attrs = as := by
    unfold makeCsvSchema at h6
    rw [h1] at h6
    simp only at h6
    cases hm : makeSchema as with
    | ok sch' =>
      rw [hm] at h6
      simp only [Prod.mk.injEq, Res.ok.injEq] at h6
      refine ⟨by rw [h6.1], ?_⟩
      rw [← h6.1]
      unfold makeSchema at hm
      cases hx : schemaLoop as 0 [] with
      | ok m => rw [hx] at hm; simp only [Res.ok.injEq] at hm; rw [← hm]
      | err e => rw [hx] at hm; simp at hm
      | ub e => rw [hx] at hm; simp at hm
    | err e => rw [hm] at h6; cases e <;> simp at h6
    | ub e => rw [hm] at h6; simp at h6
  exact ⟨sch, _, h6, by rw [has.2, hnames]⟩

/-- Without renaming, equal names are a schema error and different ones are kept. -/
theorem C33_without_dedupe (o : CsvOpts) (batch : Nat) (s : CsvState) (hd : o.dedupe = false)
    (hl : s.names.length = s.types.length) :
    (((used o s.names s.types).map Prod.fst).Nodup → ∃ sch s', makeCsvSchema o batch s = (.ok sch, s') ∧
      sch.attrs = (used o s.names s.types).map (columnAttr batch)) ∧
    (¬ ((used o s.names s.types).map Prod.fst).Nodup → (makeCsvSchema o batch s).1 = .err .schemaError) := by
  obtain ⟨h1, h2⟩ := makeCsvSchema_plain o hd batch s hl
  refine ⟨fun hn => ?_, fun hn => by rw [h2 hn]⟩
  obtain ⟨sch, h3, h4⟩ := h1 hn
  exact ⟨sch, _, h4, h3⟩

def schemaNames (r : Res Schema × CsvState) : Res (List Bytes) :=
  match r.1 with
  | .ok s => .ok (s.attrs.map Attr.name)
  | .err e => .err e
  | .ub w => .ub w

/-- Columns `a`, `b`, `a`, `a`, of which all or the last three are read. -/
example :
    schemaNames (makeCsvSchema {} 8 { names := [[97], [98], [97], [97]], types := List.replicate 4 .int64 }) =
      .ok [[97], [98], [97, 95, 49], [97, 95, 50]] ∧
    schemaNames (makeCsvSchema { useIndices := [1, 2, 3] } 8
      { names := [[97], [98], [97], [97]], types := List.replicate 4 .int64 }) = .ok [[98], [97], [97, 95, 49]] ∧
    schemaNames (makeCsvSchema { dedupe := false } 8
      { names := [[97], [98], [97], [97]], types := List.replicate 4 .int64 }) = .err .schemaError := by decide

/-- Not every first occurrence keeps its name: of the columns `X`, `X`, `X_1` the second is renamed to `X_1`, and
the third, the first with the name `X_1`, to `X_1_1`. -/
theorem C33_first_occurrence_violated :
    schemaNames (makeCsvSchema {} 8 { names := [[88], [88], [88, 95, 49]], types := List.replicate 3 .int64 }) =
      .ok [[88], [88, 95, 49], [88, 95, 49, 95, 49]] := by decide

/-! ## C34 -/

theorem usedFrom_sublist (o : CsvOpts) : ∀ (cs : List (Bytes × DataType)) (i : Nat), (usedFrom o i cs).Sublist cs
  | [], _ => by simp [usedFrom]
  | c :: cs, i => by
    unfold usedFrom
    split
    · exact (usedFrom_sublist o cs (i + 1)).cons_cons c
    · exact (usedFrom_sublist o cs (i + 1)).cons c

theorem used_nodup (o : CsvOpts) (names : List Bytes) (types : List DataType) (h : names.Nodup)
    (hl : names.length ≤ types.length) : ((used o names types).map Prod.fst).Nodup := by
  have h1 := (usedFrom_sublist o (names.zip types) 0).map Prod.fst
  rw [List.map_fst_zip hl] at h1
  exact h.sublist h1

/-- C34: with different column names, each column gets the type given for its name, else the one given for its
index, else the one found in the first row (or the default type); an override without a column is an
invalid argument; and the schema consists of the selected columns with these types.

Partial: of several columns with the same name an override by name reaches only the first, see
`C34_equal_names` and `C34_equal_names_violated`. -/
theorem C34_schema_partial (F64 : FloatLib) (o : CsvOpts) (batch : Nat) (s : CsvState) (row : Bytes)
    (hne : s.names ≠ []) (hty : s.types = []) (hnd : s.names.Nodup)
    (hok : (tokenize o.tok row).2 = .ok ()) (hlen : (tokenize o.tok row).1.length = s.names.length) :
    (OverridesMatch o s.names → ∃ sch s', inferSchema F64 o batch s (some row) = (.ok (some sch), s') ∧
      sch.attrs = (used o s.names (overriddenTypes o s.names (rowTypes F64 o row))).map (columnAttr batch)) ∧
    (¬ OverridesMatch o s.names → (inferSchema F64 o batch s (some row)).1 = .err .invalidArgument) := by
  have hrl : s.names.length = (rowTypes F64 o row).length := by simp [rowTypes, hlen]
  refine ⟨fun hm => ?_, fun hm => ?_⟩
  · have hov := applyOverrides_nodup o { s with types := rowTypes F64 o row } hrl hnd hm
    simp only at hov
    rw [inferSchema_of F64 o batch s row hne hty hok hlen _ hov]
    have hol : s.names.length = (overriddenTypes o s.names (rowTypes F64 o row)).length := by
      simp [overriddenTypes, hrl]
    have hun := used_nodup o s.names (overriddenTypes o s.names (rowTypes F64 o row)) hnd (by omega)
    by_cases hd : o.dedupe = true
    · obtain ⟨sch, s', h1, h2⟩ := C33_distinct_names_kept o batch
        { s with types := overriddenTypes o s.names (rowTypes F64 o row) } hd hol hun
      exact ⟨sch, s', by rw [h1], h2⟩
    · obtain ⟨sch, s', h1, h2⟩ := (C33_without_dedupe o batch
        { s with types := overriddenTypes o s.names (rowTypes F64 o row) } (by simpa using hd) hol).1 hun
      exact ⟨sch, s', by rw [h1], h2⟩
  · obtain ⟨ts, h1, _⟩ := (applyOverrides_spec o { s with types := rowTypes F64 o row } hrl).2 hm
    unfold inferSchema
    rw [if_neg (by simp)]
    have e1 : inferColumnTypes F64 o s (some row) = (.ok (), { s with types := rowTypes F64 o row }) := by
      unfold inferColumnTypes
      simp only [hok, hty, List.nil_append]
      rfl
    have e2 : setOrValidateNames o { s with types := rowTypes F64 o row } (some row) =
        (.ok (), { s with types := rowTypes F64 o row }) := by
      unfold setOrValidateNames
      rw [if_neg (by simpa using hne), if_neg (by simp [hrl])]
    rw [e1]
    simp only [e2, h1]

/-- C34 for a first row as a user writes it: the type of a column is that given for its name or index, else the default
type, else the kind of its text.

Partial: as `C34_schema_partial`. -/
theorem C34_written_row_partial (F64 : FloatLib) (o : CsvOpts) (batch : Nat) (s : CsvState) (fs : List Field)
    (hne : s.names ≠ []) (hty : s.types = []) (hnd : s.names.Nodup) (hm : o.tok.maxField = none)
    (hdq : o.tok.delimiter ≠ o.tok.quote) (hf : ∀ f ∈ fs, f.Ok o.tok.delimiter o.tok.quote)
    (hlen : fs.length = s.names.length) (hov : OverridesMatch o s.names) (found : List DataType)
    (hfl : found.length = fs.length)
    (hfound : ∀ p ∈ fs.zip found, match o.defaultType with
      | some t => p.2 = t
      | none => TextKind (fun s => ∃ v, F64.atof s = some v ∧ F64.isInf v = false) p.1.value p.2) :
    ∃ sch s', inferSchema F64 o batch s (some (rowBytes o.tok.delimiter o.tok.quote fs)) = (.ok (some sch), s') ∧
      sch.attrs = (used o s.names (overriddenTypes o s.names found)).map (columnAttr batch) := by
  have hfne : fs ≠ [] := by
    intro h
    rw [h] at hlen
    exact hne (List.length_eq_zero_iff.1 hlen.symm)
  have ht := tokenize_row o.tok hm hdq fs hfne hf
  have hrow : rowTypes F64 o (rowBytes o.tok.delimiter o.tok.quote fs) = found := by
    unfold rowTypes
    rw [ht, List.map_map]
    clear ht hfne hlen hf
    induction fs generalizing found with
    | nil => exact (List.length_eq_zero_iff.1 hfl).symm
    | cons f fs ih =>
      cases found with
      | nil => simp at hfl
      | cons t ts =>
        rw [List.map_cons, ih ts (by simpa using hfl) fun p hp => hfound p (by simp [hp])]
        have h := hfound (f, t) (by simp)
        congr 1
        cases hd : o.defaultType with
        | some d => rw [hd] at h; exact h.symm
        | none => rw [hd] at h; exact (C37_exact F64 f.value t).2 h
  have := (C34_schema_partial F64 o batch s (rowBytes o.tok.delimiter o.tok.quote fs) hne hty hnd (by rw [ht])
    (by rw [ht]; simpa using hlen)).1 hov
  rwa [hrow] at this

-- names `a` and `b`, the row `1,"x"`, and `a` is to be read as `float32`
example : (∀ f ∈ [(⟨[49], false⟩ : Field), ⟨[120], true⟩], f.Ok 44 34) ∧
    OverridesMatch { types := [([97], .float32)] } [[97], [98]] ∧
    TextKind (fun s => ∃ v, toyFloat.atof s = some v ∧ toyFloat.isInf v = false) [49] .int64 ∧
    TextKind (fun s => ∃ v, toyFloat.atof s = some v ∧ toyFloat.isInf v = false) [120] .float64 ∧
    used { types := [([97], .float32)] } [[97], [98]]
      (overriddenTypes { types := [([97], .float32)] } [[97], [98]] [.int64, .float64]) =
      [([97], .float32), ([98], .float64)] :=
  ⟨by simp [Field.Ok], by decide, (C37_exact _ _ _).1 (by decide), (C37_exact _ _ _).1 (by decide), by decide⟩

/-- C34 for any column names: an override by name changes the first column with that name, an override by index its
column; the name wins; and an override that fits no column is an invalid argument. -/
theorem C34_equal_names (o : CsvOpts) (s : CsvState) (hl : s.names.length = s.types.length) :
    (OverridesMatch o s.names → ∃ s', applyOverrides o s = (.ok (), s') ∧
      ∀ (i : Nat) (n : Bytes) (t : DataType), s.names[i]? = some n → s.types[i]? = some t →
        (n ∉ s.names.take i → s'.types[i]? = some (overridden o i n t)) ∧
        (n ∈ s.names.take i → s'.types[i]? = some ((o.typesByIndex.lookup i).getD t))) ∧
    (¬ OverridesMatch o s.names → (applyOverrides o s).1 = .err .invalidArgument) := by
  obtain ⟨h1, h2⟩ := applyOverrides_spec o s hl
  refine ⟨fun hm => ?_, fun hm => ?_⟩
  · obtain ⟨ts, e, _, h3⟩ := h1 hm
    refine ⟨_, e, fun i n t hn ht => ⟨fun hx => ?_, fun hx => ?_⟩⟩
    · have := h3 i n t hn ht
      rw [if_neg hx] at this; exact this
    · have := h3 i n t hn ht
      rw [if_pos hx] at this; exact this
  · obtain ⟨ts, e, _⟩ := h2 hm
    rw [e]

/-- No floating point numbers. -/
def noFloat : FloatLib := ⟨Unit, fun _ => none, fun _ => false, ()⟩

/-- The row `1,x,7` in columns `a`, `b`, `c`, of which `a` and `c` are read; `c` is overridden twice. -/
def demoOpts : CsvOpts :=
  { useColumns := [[97], [99]], types := [([99], .float32)], typesByIndex := [(2, .int8), (1, .int16)] }

def demoRow : Bytes := [49, 44, 120, 44, 55]

example : (tokenize demoOpts.tok demoRow).2 = .ok () ∧ (tokenize demoOpts.tok demoRow).1.length = 3 ∧
    OverridesMatch demoOpts [[97], [98], [99]] ∧ ([[97], [98], [99]] : List Bytes).Nodup ∧
    ((used demoOpts [[97], [98], [99]] (overriddenTypes demoOpts [[97], [98], [99]]
      (rowTypes noFloat demoOpts demoRow))).map Prod.snd) = [.int64, .float32] ∧
    ¬ OverridesMatch demoOpts [[97], [98]] := by decide

/-- Of two columns with the name `X` only the first gets the type given for `X`. -/
theorem C34_equal_names_violated :
    ∃ s', applyOverrides { types := [([88], .float32)] } { names := [[88], [88]], types := [.int64, .int64] } =
      (.ok (), s') ∧ s'.types = [.float32, .int64] := ⟨_, rfl, by decide⟩

/-! ## C35 -/

/-- C35: in the next epoch after any number of earlier ones, each of which has opened any number of data stores,
every store contributes exactly its data rows: with `header_row_index` set those after the header, with
`has_single_header` this applies to the first store only, and without header all rows.

Partial: with `has_single_header` and column names to be read from the header, the first store must have a header
row, see `C35_single_header_violated`; and header rows must be readable (see `C36`). -/
theorem C35_data_rows_partial (o : CsvOpts) (rm : Machine Record) (rs : List rm.σ) (xss : List (List Record))
    (hh : Holds rm rs xss) (hok : ∀ h, o.headerRow = some h → ∀ xs ∈ xss, HeaderOk o h xs)
    (hsingle : o.singleHeader = true → ∀ h xs, o.headerRow = some h → xss.head? = some xs →
      o.columnNames ≠ [] ∨ h < xs.length)
    (epochs : List Nat) :
    ∃ rs', (openAll o rm (afterEpochs o rm (rs.map .ok) (CsvState.fresh o) epochs) (rs.map .ok)).1 = rs'.map .ok ∧
      Holds rm rs' (xss.zipIdx.map (fun p => dataRows o p.2 p.1)) := by
  cases ho : o.headerRow with
  | none =>
    refine ⟨rs, openAll_none o rm ho rs _, ?_⟩
    have : xss.zipIdx.map (fun p => dataRows o p.2 p.1) = xss := by
      simp [dataRows, ho, List.zipIdx_map_fst]
    rw [this]; exact hh
  | some h =>
    have hok := hok h ho
    by_cases hs : o.singleHeader = true
    · cases xss with
      | nil =>
        cases rs with
        | nil => exact ⟨[], rfl, trivial⟩
        | cons r rs => exact hh.elim
      | cons xs xss =>
        cases rs with
        | nil => exact hh.elim
        | cons r rs =>
          obtain ⟨h1, h2⟩ := afterEpochs_inv o rm h ho (r :: rs) (xs :: xss) hh hok epochs (CsvState.fresh o) rfl
          obtain ⟨rs', e, hh'⟩ := openAll_single o rm h ho hs r rs xs xss
            (afterEpochs o rm ((r :: rs).map .ok) (CsvState.fresh o) epochs) hh hok
            (by
              rcases hsingle hs h xs ho rfl with hx | hx
              · exact Or.inl (h2 hx)
              · exact Or.inr hx) h1
          refine ⟨rs', e, ?_⟩
          have : ((xs :: xss).zipIdx.map (fun p => dataRows o p.2 p.1)) = xs.drop (h + 1) :: xss := by
            have hrest : ∀ (l : List (List Record)) (k : Nat), 0 < k →
                (l.zipIdx k).map (fun p => dataRows o p.2 p.1) = l := by
              intro l
              induction l with
              | nil => intros; rfl
              | cons y l ih =>
                intro k hk
                rw [List.zipIdx_cons, List.map_cons, ih (k + 1) (by omega)]
                simp only [dataRows, ho]
                rw [if_pos ⟨hs, by omega⟩]
            rw [List.zipIdx_cons, List.map_cons, hrest xss _ (by omega)]
            simp only [dataRows, ho]
            rw [if_neg (by simp)]
          rw [this]; exact hh'
    · have hs : o.singleHeader = false := by simpa using hs
      obtain ⟨rs', e, hh'⟩ := openAll_every o rm h ho hs rs xss
        (afterEpochs o rm (rs.map .ok) (CsvState.fresh o) epochs) hh hok
      refine ⟨rs', e, ?_⟩
      have : (xss.zipIdx.map (fun p => dataRows o p.2 p.1)) = xss.map (·.drop (h + 1)) := by
        have : (fun p : List Record × Nat => dataRows o p.2 p.1) =
            (fun xs : List Record => xs.drop (h + 1)) ∘ Prod.fst := by
          funext p
          simp [dataRows, ho, hs]
        rw [this, ← List.map_map, List.zipIdx_map_fst]
      rw [this]; exact hh'

/-- C35, names: without given column names, those of the header row of the first store are used. -/
theorem C35_names (o : CsvOpts) (rm : Machine Record) (h : Nat) (r : rm.σ) (rs : List rm.σ) (xs : List Record)
    (xss : List (List Record)) (hdr : Record) (ho : o.headerRow = some h) (hc : o.columnNames = [])
    (hh : Holds rm (r :: rs) (xs :: xss)) (hok : ∀ x ∈ xs :: xss, HeaderOk o h x) (hx : xs[h]? = some hdr) :
    (openAll o rm (CsvState.fresh o) ((r :: rs).map .ok)).2.names =
      (tokenize o.tok hdr.payload).1.map (fun f => o.namePrefix ++ f.1) := by
  obtain ⟨r', s', e, h0, h1, h2, hy⟩ := makeRecordReader_yields o rm h ho (CsvState.fresh o) r xs hh.1 (hok xs (by simp))
  have hn : s'.names = headerNames o hdr := by rw [h2 hc, hx]
  have hne : s'.names ≠ [] := by
    rw [hn]; exact headerNames_ne_nil o hdr (hok xs (by simp) hdr hx)
  have := openAll_names o rm h ho rs xss s' hh.2 (fun x hx => hok x (by simp [hx])) hne
  simp only [List.map_cons, openAll, e]
  rw [this, hn]
  unfold headerNames
  apply List.map_congr_left
  intro f _
  unfold prefixed
  by_cases hp : o.namePrefix = []
  · simp [hp]
  · rw [if_neg (by simpa using hp)]

/-- C35, names, for a header row as a user writes it. -/
theorem C35_names_written (o : CsvOpts) (rm : Machine Record) (h : Nat) (r : rm.σ) (rs : List rm.σ) (xs : List Record)
    (xss : List (List Record)) (hdr : Record) (ho : o.headerRow = some h) (hc : o.columnNames = [])
    (hh : Holds rm (r :: rs) (xs :: xss)) (hok : ∀ x ∈ xs :: xss, HeaderOk o h x) (hx : xs[h]? = some hdr)
    (hm : o.tok.maxField = none) (hdq : o.tok.delimiter ≠ o.tok.quote) (fs : List Field) (hne : fs ≠ [])
    (hf : ∀ f ∈ fs, f.Ok o.tok.delimiter o.tok.quote) (hp : hdr.payload = rowBytes o.tok.delimiter o.tok.quote fs) :
    (openAll o rm (CsvState.fresh o) ((r :: rs).map .ok)).2.names = fs.map fun f => o.namePrefix ++ f.value := by
  rw [C35_names o rm h r rs xs xss hdr ho hc hh hok hx, hp, tokenize_row o.tok hm hdq fs hne hf, List.map_map]
  rfl

/-- Stores `a,b / 1,2` and `a,b / 3,4`: header in each. -/
def demoStores : List (List Record) :=
  [[⟨0, [97, 44, 98]⟩, ⟨0, [49, 44, 50]⟩], [⟨0, [97, 44, 98]⟩, ⟨0, [51, 44, 52]⟩]]

def demoMachine : Machine Record := listMachine []

def demoReaders : List demoMachine.σ := demoStores

example : Holds demoMachine demoReaders demoStores ∧ (∀ xs ∈ demoStores, HeaderOk {} 0 xs) ∧
    demoStores.zipIdx.map (fun p => dataRows {} p.2 p.1) = [[⟨0, [49, 44, 50]⟩], [⟨0, [51, 44, 52]⟩]] ∧
    demoStores.zipIdx.map (fun p => dataRows { singleHeader := true } p.2 p.1) =
      [[⟨0, [49, 44, 50]⟩], [⟨0, [97, 44, 98]⟩, ⟨0, [51, 44, 52]⟩]] := by
  refine ⟨⟨listMachine_yields _ _, listMachine_yields _ _, trivial⟩, ?_, by decide, by decide⟩
  intro xs hx hdr hh
  simp only [demoStores, List.mem_cons, List.not_mem_nil, or_false] at hx
  rcases hx with rfl | rfl <;> simp at hh <;> subst hh <;> decide

/-- With `has_single_header` and an empty first store, the first epoch takes the first row of the second store as the
header (the row is lost), the second epoch delivers it as data. -/
theorem C35_single_header_violated :
    ∃ (o : CsvOpts) (stores : List demoMachine.σ), o.singleHeader = true ∧
      Holds demoMachine stores [[], [⟨0, [49]⟩, ⟨0, [50]⟩]] ∧
      (openAll o demoMachine (CsvState.fresh o) (stores.map .ok)).1 = [.ok [], .ok [⟨0, [50]⟩]] ∧
      (openAll o demoMachine (afterEpochs o demoMachine (stores.map .ok) (CsvState.fresh o) [2]) (stores.map .ok)).1 =
        [.ok [], .ok [⟨0, [49]⟩, ⟨0, [50]⟩]] :=
  ⟨{ singleHeader := true }, [([] : List Record), [⟨0, [49]⟩, ⟨0, [50]⟩]], rfl,
    ⟨listMachine_yields _ _, listMachine_yields _ _, trivial⟩, rfl, rfl⟩

/-! ## C36 -/

/-- C36 where nothing has been found yet: without a row and without column names, every attempt reports that
there is no schema.

Partial: see the theorems below for the other cases and `C36_…_violated` for those in which it fails. -/
theorem C36_no_data_partial (F64 : FloatLib) (o : CsvOpts) (batch n : Nat) (s : CsvState) (h : s.names = []) :
    inferAttempts F64 o batch none n s = List.replicate n (.ok none) := by
  induction n with
  | zero => rfl
  | succ n ih =>
    unfold inferAttempts
    have : inferSchema F64 o batch s none = (.ok none, s) := by simp [inferSchema, h]
    rw [this]
    simp only
    rw [ih, List.replicate_succ]

/-- C36 where the first field of the row cannot be read: every attempt is the same schema error. -/
theorem C36_unreadable_row_partial (F64 : FloatLib) (o : CsvOpts) (batch n : Nat) (s : CsvState) (row : Bytes)
    (h : (tokenize o.tok row).2 ≠ .ok ()) (hf : (tokenize o.tok row).1 = []) :
    inferAttempts F64 o batch (some row) n s = List.replicate n (.err .schemaError) := by
  induction n with
  | zero => rfl
  | succ n ih =>
    have hi : inferSchema F64 o batch s (some row) = (.err .schemaError, s) := by
      unfold inferSchema
      rw [if_neg (by simp)]
      unfold inferColumnTypes
      cases ht : (tokenize o.tok row).2 with
      | ok u => exact absurd ht h
      | ub w => exact absurd ht (tokenize_no_ub _ _ _)
      | err e =>
        have := tokenize_err _ _ _ ht
        subst this
        simp only [ht, hf, List.map_nil, List.append_nil]
        rfl
    unfold inferAttempts
    rw [hi]
    simp only
    rw [ih, List.replicate_succ]

example : (tokenize {} [34, 97]).2 ≠ .ok () ∧ (tokenize {} [34, 97]).1 = [] := by decide

/-- C36 for equal column names without renaming: every attempt is a schema error. -/
theorem C36_equal_names_partial (F64 : FloatLib) (o : CsvOpts) (batch n : Nat) (s : CsvState) (row : Bytes)
    (hne : s.names ≠ []) (hty : s.types = []) (hd : o.dedupe = false) (ht : o.types = []) (hti : o.typesByIndex = [])
    (hok : (tokenize o.tok row).2 = .ok ()) (hlen : (tokenize o.tok row).1.length = s.names.length)
    (hnd : ¬ ((used o s.names (rowTypes F64 o row)).map Prod.fst).Nodup) :
    inferAttempts F64 o batch (some row) n s = List.replicate n (.err .schemaError) := by
  cases n with
  | zero => rfl
  | succ n =>
    have hrl : s.names.length = (rowTypes F64 o row).length := by simp [rowTypes, hlen]
    obtain ⟨ts, hov, hlts, htx⟩ := (applyOverrides_spec o { s with types := rowTypes F64 o row } hrl).1
      ⟨by simp [hti], by simp [ht]⟩
    have hts : ts = rowTypes F64 o row := by
      apply List.ext_getElem?
      intro i
      by_cases hi : i < (rowTypes F64 o row).length
      · have := htx i s.names[i] (rowTypes F64 o row)[i] (by simp) (by simp [hi])
        rw [this]
        simp only [hi, ht, hti, List.lookup]
        split <;> simp
      · rw [List.getElem?_eq_none (by simp only at hlts; omega), List.getElem?_eq_none (by omega)]
    subst hts
    have h1 := inferSchema_of F64 o batch s row hne hty hok hlen _ hov
    rw [(makeCsvSchema_plain o hd batch { s with types := rowTypes F64 o row } hrl).2 hnd] at h1
    simp only at h1
    unfold inferAttempts
    rw [h1]
    simp only
    rw [List.replicate_succ]
    congr 1
    exact inferAttempts_late F64 o batch row n _ hne (Nat.le_of_eq hrl)

example : ¬ ((used { dedupe := false } [[97], [97]] (rowTypes noFloat { dedupe := false } [49, 44, 50])).map
    Prod.fst).Nodup ∧ (tokenize {} [49, 44, 50]).1.length = 2 := by decide

def outcome (r : Res (Option Schema)) : Res (Option (List (Bytes × DataType))) :=
  match r with
  | .ok none => .ok none
  | .ok (some s) => .ok (some (s.attrs.map (fun a => (a.name, a.dt))))
  | .err e => .err e
  | .ub w => .ub w

/-- A row with one field under a header with two: the first attempt is a schema error, the second one returns a
schema with two columns, because the types of both attempts are taken together. -/
theorem C36_column_count_violated :
    (inferAttempts noFloat {} 8 (some [49]) 3 { names := [[97], [98]] }).map outcome =
      [.err .schemaError, .ok (some [([97], .int64), ([98], .int64)])] := by decide

/-- A wrong override: an invalid argument first, then a schema error. -/
theorem C36_override_violated :
    (inferAttempts noFloat { types := [([120], .int8)] } 8 (some [49]) 3 { names := [[97]] }).map outcome =
      [.err .invalidArgument, .err .schemaError, .err .schemaError] := by decide

/-- Without rows, a wrong override leads to reading an empty optional in the second attempt. -/
theorem C36_no_rows_violated :
    (inferAttempts noFloat { types := [([120], .int8)] } 8 none 3 { names := [[97]] }).map outcome =
      [.err .invalidArgument, .ub "empty optional dereferenced"] := by decide

/-- A header row `a,"b` whose second field cannot be read: opening the store is a schema error at first, then it
succeeds and the dataset has the single column `a`. -/
theorem C36_header_violated :
    ∃ (s' : CsvState),
      makeRecordReader {} demoMachine (CsvState.fresh {}) (.ok ([⟨0, [97, 44, 34, 98]⟩, ⟨0, [49]⟩] : List Record)) =
        (.err .schemaError, s') ∧
      (makeRecordReader {} demoMachine s' (.ok ([⟨0, [97, 44, 34, 98]⟩, ⟨0, [49]⟩] : List Record))).1 =
        .ok ([⟨0, [49]⟩] : List Record) ∧
      s'.names = [[97]] := ⟨_, rfl, rfl, by decide⟩

end Mlio
