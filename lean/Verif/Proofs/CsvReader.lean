import Verif.Proofs.EndToEnd
import Verif.Props.Csv
import Verif.Props.CsvSchema
import Verif.Props.CsvDecode
import Verif.Spec.CsvReader

/-!
# The CSV reader from data stores to examples: proofs
-/

namespace Mlio
open Spec

/-! ## One file -/

theorem plain_escape (q : UInt8) (hq : q ≠ 10 ∧ q ≠ 13) : ∀ x : Bytes, Plain x → Plain (escape q x) := by
  intro x
  induction x with
  | nil => intro _; simp [Plain, escape]
  | cons c cs ih =>
    intro h
    have h1 := h c (by simp)
    have h2 := ih (fun y hy => h y (by simp [hy]))
    unfold escape
    split
    · intro y hy
      simp only [List.mem_cons] at hy
      rcases hy with rfl | rfl | hy
      · exact hq
      · exact hq
      · exact h2 y hy
    · intro y hy
      simp only [List.mem_cons] at hy
      rcases hy with rfl | hy
      · exact h1
      · exact h2 y hy

theorem plain_row (d q : UInt8) (hd : d ≠ 10 ∧ d ≠ 13) (hq : q ≠ 10 ∧ q ≠ 13) :
    ∀ fs : List Field, (∀ f ∈ fs, Plain f.value) → Plain (rowBytes d q fs) := by
  have one : ∀ f : Field, Plain f.value → Plain (f.bytes q) := by
    intro f hf
    unfold Field.bytes
    split
    · intro y hy
      simp only [List.mem_cons, List.mem_append, List.not_mem_nil, or_false] at hy
      rcases hy with (rfl | hy) | rfl
      · exact hq
      · exact plain_escape q hq _ hf y hy
      · exact hq
    · exact hf
  intro fs
  induction fs with
  | nil => intro _; simp [Plain, rowBytes]
  | cons f fs ih =>
    intro h
    cases fs with
    | nil => exact one f (h f (by simp))
    | cons g gs =>
      intro y hy
      simp only [rowBytes, List.mem_append, List.mem_cons] at hy
      rcases hy with hy | rfl | hy
      · exact one f (h f (by simp)) y hy
      · exact hd
      · exact ih (fun x hx => h x (by simp [hx])) y hy

/-- A line that is shorter than the limit is delivered. -/
theorem rowReader_delivers (p : CsvParams) (hdq : p.delimiter ≠ p.quote)
    (hd : p.delimiter ≠ 10 ∧ p.delimiter ≠ 13) (hq : p.quote ≠ 10 ∧ p.quote ≠ 13) (fs : List Field)
    (hfs : ∀ f ∈ fs, f.Ok p.delimiter p.quote ∧ f.NoBreak)
    (hpl : p.quotedNewLines = true ∨ ∀ f ∈ fs, Plain f.value)
    (hm : ∀ m, p.maxLine = some m → (rowBytes p.delimiter p.quote fs).length + 2 < m) :
    Delivers (fun c => rowReader p c false) (rowBytes p.delimiter p.quote fs) := by
  have hlong : ∀ k, k ≤ 2 → tooLong p.maxLine ((rowBytes p.delimiter p.quote fs).length + k) = false := by
    intro k hk
    cases h : p.maxLine with
    | none => rfl
    | some m =>
      have := hm m h
      simp only [tooLong, decide_eq_false_iff_not]
      omega
  have h0 := hlong 0 (by omega)
  have h1 := hlong 1 (by omega)
  rw [Nat.add_zero] at h0
  by_cases hqn : p.quotedNewLines = true
  · obtain ⟨st0, hu, hscan⟩ := qScan_row p hdq fs hfs 0
    rw [Nat.zero_add] at hscan
    constructor
    · intro tm x hx
      simp only [rowReader, hqn, if_true]
      rw [csvReadLine_term_max p hd hq _ st0 hu hscan tm x hx, hlong tm.bytes.length (by cases tm <;> simp [Term.bytes])]
      rfl
    · intro hne
      simp only [rowReader, hqn, if_true]
      rw [csvReadLine_last_max p _ hne st0 hu hscan, h0]
      rfl
  · have hplain := plain_row _ _ hd hq fs (hpl.resolve_left hqn)
    constructor
    · intro tm x hx
      simp only [rowReader, hqn, if_false, Bool.false_eq_true]
      cases tm with
      | lf =>
        simp only [Term.bytes, List.append_assoc, List.cons_append, List.nil_append]
        exact (readLine_lf _ x hplain false p.maxLine).trans (by rw [h0]; rfl)
      | crlf =>
        simp only [Term.bytes, List.append_assoc, List.cons_append, List.nil_append]
        exact (readLine_crlf _ x hplain false p.maxLine).trans (by rw [h1]; rfl)
      | cr =>
        simp only [Term.bytes, List.append_assoc, List.cons_append, List.nil_append]
        exact (readLine_cr _ x hplain (hx rfl) false p.maxLine).trans (by rw [h0]; rfl)
    · intro hne
      simp only [rowReader, hqn, if_false, Bool.false_eq_true]
      rw [readLine_open _ hplain hne false p.maxLine, h0]
      rfl

/-- A line of a sheet: a row, a comment, or nothing. -/
theorem sheet_line {p : CsvParams} {s : Sheet} (hg : s.Good p) {l : SheetLine} (hl : l ∈ s.all) :
    (∃ fs, l = .row fs ∧ fs ∈ s.rows) ∨
    (∃ b, l = .other b ∧ Plain b ∧ (p.comment.isSome && b.head? == p.comment) = true) ∨ l = .other [] := by
  cases l with
  | row fs => exact Or.inl ⟨fs, rfl, List.mem_filterMap.2 ⟨_, hl, rfl⟩⟩
  | other b =>
    right
    have key : Plain b → isRow p.comment p.skipBlank b = false →
        (∃ b', SheetLine.other b = .other b' ∧ Plain b' ∧ (p.comment.isSome && b'.head? == p.comment) = true) ∨
        SheetLine.other b = .other [] := by
      intro h1 h2
      cases hc : (p.comment.isSome && b.head? == p.comment) with
      | true => exact Or.inl ⟨b, rfl, h1, hc⟩
      | false =>
        right
        simp only [isRow, hc, Bool.not_false, Bool.true_and, Bool.not_eq_false', Bool.and_eq_true,
          List.isEmpty_iff] at h2
        rw [h2.2]
    unfold Sheet.all at hl
    rcases List.mem_append.1 hl with h | h
    · exact key (hg.other b h).1 (hg.other b h).2
    · rcases hg.lastOther b (List.mem_singleton.1 h).symm with rfl | ⟨h1, h2⟩
      · exact Or.inr rfl
      · exact key h1 h2

theorem isRow_comment {p : CsvParams} {b : Bytes} (h : isRow p.comment p.skipBlank b = true) :
    (p.comment.isSome && b.head? == p.comment) = false := by
  simp only [isRow, Bool.and_eq_true, Bool.not_eq_true'] at h
  exact h.1

theorem sheet_linesOk {p : CsvParams} {o : CsvOpts} (hp : Plainly p o) {s : Sheet} (hg : s.Good p) :
    LinesOk p (s.text p.delimiter p.quote) := by
  refine ⟨?_, hg.unambiguous, hp.comment⟩
  intro b hmem
  obtain ⟨l, hl, rfl⟩ : ∃ l ∈ s.all, b = l.bytes p.delimiter p.quote := by
    rcases hmem with h | h
    · simp only [Sheet.text, List.map_map, List.mem_map] at h
      obtain ⟨l, hl, rfl⟩ := h
      exact ⟨l.1, List.mem_append_left _ (List.mem_map.2 ⟨l, hl, rfl⟩), rfl⟩
    · exact ⟨s.last, List.mem_append_right _ (by simp), h⟩
  have rowCase : ∀ fs : List Field, l.bytes p.delimiter p.quote = rowBytes p.delimiter p.quote fs →
      (∀ f ∈ fs, f.Ok p.delimiter p.quote ∧ f.NoBreak) → (p.quotedNewLines = true ∨ ∀ f ∈ fs, Plain f.value) →
      (p.comment.isSome && (rowBytes p.delimiter p.quote fs).head? == p.comment) = false →
      (if p.comment.isSome && (rowBytes p.delimiter p.quote fs).head? == p.comment then
          Delivers (fun c => readLine c false none) (rowBytes p.delimiter p.quote fs)
        else Delivers (fun c => rowReader p c false) (rowBytes p.delimiter p.quote fs)) ∧
      (rowBytes p.delimiter p.quote fs).head? ≠ some LF := by
    intro fs he h1 h2 h3
    refine ⟨?_, rowBytes_head _ _ hp.delimiter.1 hp.quote.1 fs h1⟩
    rw [h3]
    refine rowReader_delivers p hp.distinct hp.delimiter hp.quote fs h1 h2 fun m hm => ?_
    have := hg.limit m hm l hl (by
      rw [he]
      cases hc : p.comment with
      | none => exact Or.inl rfl
      | some c =>
        right
        rw [hc] at h3
        simpa using h3)
    rw [he] at this
    exact this
  rw [← and_assoc]
  refine ⟨?_, hg.noMark l hl⟩
  rcases sheet_line hg hl with ⟨fs, rfl, h⟩ | ⟨b, rfl, h1, h2⟩ | rfl
  · exact rowCase fs rfl (hg.fields fs h) (hg.breaks.imp id fun h' => h' fs h) (isRow_comment (hg.row fs h))
  · exact ⟨Eq.mpr (if_pos h2) (readLine_delivers b h1), plain_noLf b h1⟩
  · exact rowCase [] rfl (by simp) (Or.inr (by simp)) (by cases p.comment <;> simp [rowBytes])

/-- The rows of a sheet, as bytes. -/
def rowLines (d q : UInt8) (s : Sheet) : List Bytes := s.rows.map (rowBytes d q)

theorem sheet_rowLines {p : CsvParams} {s : Sheet} (hg : s.Good p) :
    (s.text p.delimiter p.quote).content.filter (isRow p.comment p.skipBlank) = rowLines p.delimiter p.quote s := by
  have hkeep : ∀ fs ∈ s.rows, isRow p.comment p.skipBlank (rowBytes p.delimiter p.quote fs) = true := hg.row
  have part : ∀ ls : List SheetLine, (∀ fs, .row fs ∈ ls → isRow p.comment p.skipBlank (rowBytes p.delimiter p.quote fs) = true) →
      (∀ b, .other b ∈ ls → isRow p.comment p.skipBlank b = false) →
      (ls.map (SheetLine.bytes p.delimiter p.quote)).filter (isRow p.comment p.skipBlank) =
        (ls.filterMap SheetLine.fields?).map (rowBytes p.delimiter p.quote) := by
    intro ls
    induction ls with
    | nil => intro _ _; rfl
    | cons l ls ih =>
      intro h1 h2
      have ih := ih (fun fs h => h1 fs (by simp [h])) (fun b h => h2 b (by simp [h]))
      cases l with
      | row fs =>
        simp only [List.map_cons, SheetLine.bytes, List.filter_cons, h1 fs (by simp), if_true, List.filterMap_cons, SheetLine.fields?]
        rw [ih]
      | other b =>
        simp only [List.map_cons, SheetLine.bytes, List.filter_cons, h2 b (by simp), Bool.false_eq_true, if_false,
          List.filterMap_cons, SheetLine.fields?]
        exact ih
  have hmem : ∀ fs, SheetLine.row fs ∈ s.all → isRow p.comment p.skipBlank (rowBytes p.delimiter p.quote fs) = true :=
    fun fs h => hkeep fs (List.mem_filterMap.2 ⟨_, h, rfl⟩)
  unfold rowLines Sheet.rows Sheet.all Text.content
  rw [List.filter_append, List.filterMap_append, List.map_append]
  congr 1
  · rw [← part (s.lines.map Prod.fst) (fun fs h => hmem fs (List.mem_append_left _ h)) (fun b h => (hg.other b h).2)]
    simp only [Sheet.text, List.map_map]
    rfl
  · cases hl : s.last with
    | row fs =>
      have := hg.lastRow fs hl
      have h2 := hmem fs (by rw [← hl]; exact List.mem_append_right _ (by simp))
      simp [Sheet.text, hl, SheetLine.fields?, SheetLine.bytes, this, h2]
    | other b =>
      rcases hg.lastOther b hl with rfl | ⟨_, h⟩
      · simp [Sheet.text, hl, SheetLine.fields?, SheetLine.bytes]
      · by_cases hb : b = []
        · simp [Sheet.text, hl, SheetLine.fields?, SheetLine.bytes, hb]
        · simp [Sheet.text, hl, SheetLine.fields?, SheetLine.bytes, hb, h]

theorem sheet_rowsOf {p : CsvParams} {o : CsvOpts} (hp : Plainly p o) {s : Sheet} (hg : s.Good p) :
    RowsOf p (s.bytes p.delimiter p.quote) (rowLines p.delimiter p.quote s) := by
  apply rowsOf_of
  intro k
  have := csv_lines p _ (sheet_linesOk hp hg) k
  rw [sheet_rowLines hg] at this
  exact this

/-- The fields of a row. -/
def rowFields (tok : TokParams) (row : Bytes) : List Bytes := (tokenize { tok with maxField := none } row).1.map Prod.fst

theorem tokenize_fields {p : CsvParams} {o : CsvOpts} (hp : Plainly p o) (fs : List Field) (hne : fs ≠ [])
    (hok : ∀ f ∈ fs, f.Ok p.delimiter p.quote) :
    rowFields o.tok (rowBytes p.delimiter p.quote fs) = fs.map Field.value ∧
    tokenize o.tok (rowBytes p.delimiter p.quote fs) = ((fs.map Field.value).map (cutField o.tok.maxField), .ok ()) := by
  have htok : tokenize { o.tok with maxField := none } (rowBytes p.delimiter p.quote fs) =
      (fs.map fun f => (f.value, false), .ok ()) := by
    have := tokenize_row { o.tok with maxField := none } rfl
      (by simp only [hp.tokDelimiter, hp.tokQuote]; exact hp.distinct) fs hne
      (fun f hf => by simp only [hp.tokDelimiter, hp.tokQuote]; exact hok f hf)
    simp only [hp.tokDelimiter, hp.tokQuote] at this ⊢
    exact this
  constructor
  · simp only [rowFields, htok, List.map_map]
    rfl
  · rw [List.map_map]
    cases hm : o.tok.maxField with
    | none =>
      have : ({ o.tok with maxField := none } : TokParams) = o.tok := by rw [← hm]
      rw [this] at htok
      rw [htok]
      rfl
    | some m =>
      have h1 := (C12_field_limit o.tok m (rowBytes p.delimiter p.quote fs)).1
      have : ({ o.tok with maxField := some m } : TokParams) = o.tok := by rw [← hm]
      rw [this, htok, List.map_map] at h1
      rw [h1]
      rfl

theorem sheet_fields {p : CsvParams} {o : CsvOpts} (hp : Plainly p o) {s : Sheet} (hg : s.Good p) :
    (rowLines p.delimiter p.quote s).map (rowFields o.tok) = s.values ∧
    ∀ row ∈ rowLines p.delimiter p.quote s,
      tokenize o.tok row = ((rowFields o.tok row).map (cutField o.tok.maxField), .ok ()) := by
  have key := fun fs (h : fs ∈ s.rows) => tokenize_fields hp fs (hg.nonempty fs h) (fun f hf => (hg.fields fs h f hf).1)
  constructor
  · unfold rowLines Sheet.values
    rw [List.map_map]
    exact List.map_congr_left fun fs h => (key fs h).1
  · intro row hr
    obtain ⟨fs, hfs, rfl⟩ := List.mem_map.1 hr
    rw [(key fs hfs).1, (key fs hfs).2]

theorem crlfSafe_ok {p : CsvParams} {o : CsvOpts} (hp : Plainly p o) (x : Bytes) (h : CrlfSafe p) : CrlfOk p x := by
  rcases h with h | h
  · exact Or.inr (Or.inl h)
  · exact Or.inr (Or.inr ⟨h.1, h.2, hp.delimiter.1, hp.quote.1⟩)

/-! ## The core reader -/

theorem csvCore_outs (codec m p o fuel readers) (h : List Nat) (n : Nat) : ∀ c : CoreState (LineReader codec m fuel),
    (csvCoreOver codec m p o fuel readers).outs n (c, h) =
      (coreReader (lineMachine codec m (csvDecode p) fuel) (openEpoch o (lineMachine codec m (csvDecode p) fuel) readers h) fuel).outs n c := by
  induction n with
  | zero => intro c; rfl
  | succ n ih => intro c; exact congrArg (_ :: ·) (ih _)

theorem holds_of_map (rm : Machine Record) : ∀ (rs : List rm.σ) (xss : List (List Bytes)) (yss : List (List Record)),
    Holds rm rs yss → yss = xss.map (fun xs => xs.map fun b => ⟨0, b⟩) →
    Holds rm rs (xss.map fun xs => xs.map fun b => ⟨0, b⟩) := by
  intro rs xss yss h e
  rw [← e]
  exact h

theorem dataRows_map {α β : Type} (f : α → β) (o : CsvOpts) (k : Nat) (xs : List α) :
    dataRows o k (xs.map f) = (dataRows o k xs).map f := by
  unfold dataRows
  split
  · rfl
  · split
    · rfl
    · rw [List.map_drop]

/-- The rows of the data stores without headers, as bytes. -/
def dataBytes {m : SrcClass} (p : CsvParams) (o : CsvOpts) (files : List (CsvFile m)) : List (List Bytes) :=
  files.zipIdx.map fun f => dataRows o f.2 (rowLines p.delimiter p.quote f.1.table)

theorem dataBytes_fields {m : SrcClass} {p : CsvParams} {o : CsvOpts} (hp : Plainly p o) (files : List (CsvFile m))
    (hg : ∀ f ∈ files, f.Good p) :
    (dataBytes p o files).flatten.map (rowFields o.tok) = datasetRows o files ∧
    ∀ row ∈ (dataBytes p o files).flatten,
      tokenize o.tok row = ((rowFields o.tok row).map (cutField o.tok.maxField), .ok ()) := by
  have hmem : ∀ q ∈ files.zipIdx, q.1 ∈ files := by
    intro q hq
    obtain ⟨f, i⟩ := q
    exact (List.mem_zipIdx' hq).2 ▸ List.getElem_mem _
  constructor
  · unfold dataBytes datasetRows
    rw [List.map_flatten, List.map_map, List.flatMap]
    congr 1
    apply List.map_congr_left
    intro q hq
    simp only [Function.comp_apply]
    rw [← dataRows_map, (sheet_fields hp (hg q.1 (hmem q hq)).sheet).1]
  · intro row hr
    unfold dataBytes at hr
    obtain ⟨xs, hxs, hr⟩ := List.mem_flatten.1 hr
    obtain ⟨q, hq, rfl⟩ := List.mem_map.1 hxs
    refine (sheet_fields hp (hg q.1 (hmem q hq)).sheet).2 row ?_
    unfold dataRows at hr
    split at hr
    · exact hr
    · split at hr
      · exact hr
      · exact List.mem_of_mem_drop hr

theorem openEpoch_ok (o : CsvOpts) (rm : Machine Record) (rs rs' : List rm.σ) (hist : List Nat)
    (h : (openAll o rm (afterEpochs o rm (rs.map .ok) (CsvState.fresh o) hist) (rs.map .ok)).1 = rs'.map .ok) :
    openEpoch o rm (rs.map .ok) hist = rs'.map (fun r => Res.ok (some r)) := by
  unfold openEpoch
  rw [h, List.map_map]
  rfl

/-- The record readers of the tables. -/
theorem csvFiles_hold {m : SrcClass} {p : CsvParams} {o : CsvOpts} (hp : Plainly p o) (files : List (CsvFile m)) (hg : ∀ f ∈ files, f.Good p)
    (fuel : Nat) (hf : (files.map fun f => (f.table.bytes p.delimiter p.quote).length).sum +
      (files.map fun f => f.file.bytes.length).sum + 5 ≤ fuel) :
    ∃ rs : List (LineReader unicodeCodec m fuel),
      (files.map fun f => f.file.stream).map (openLines unicodeCodec m fuel none) = rs.map Res.ok ∧
      Holds (lineMachine unicodeCodec m (csvDecode p) fuel) rs
        (files.map fun f => (rowLines p.delimiter p.quote f.table).map fun b => ⟨0, b⟩) := by
  have hsafe : ∀ f ∈ files, CrlfSafe p → CrlfOk p (f.table.bytes p.delimiter p.quote) := fun f _ => crlfSafe_ok hp _
  have key : ∀ fs : List (CsvFile m), (∀ f ∈ fs, f ∈ files) → ∃ rs : List (LineReader unicodeCodec m fuel),
      (fs.map fun f => f.file.stream).map (openLines unicodeCodec m fuel none) = rs.map Res.ok ∧
      Holds (lineMachine unicodeCodec m (csvDecode p) fuel) rs
        (fs.map fun f => (rowLines p.delimiter p.quote f.table).map fun b => ⟨0, b⟩) := by
    intro fs
    induction fs with
    | nil => intro _; exact ⟨[], rfl, trivial⟩
    | cons f fs ih =>
      intro hs
      have hfm := hs f (by simp)
      have hgf := hg f hfm
      obtain ⟨r, e1, e2⟩ := stored_rows hgf.stored p (hsafe f hfm)
        (sheet_linesOk hp hgf.sheet).markFree
        (sheet_rowsOf hp hgf.sheet) fuel (by
          have : (f.table.bytes p.delimiter p.quote).length ≤
              (files.map fun f => (f.table.bytes p.delimiter p.quote).length).sum :=
            length_le_sum _ _ (List.mem_map.2 ⟨f, hfm, rfl⟩)
          omega) (by
          have : f.file.bytes.length ≤ (files.map fun f => f.file.bytes.length).sum :=
            length_le_sum _ _ (List.mem_map.2 ⟨f, hfm, rfl⟩)
          omega)
      obtain ⟨rs, e3, e4⟩ := ih (fun f hf => hs f (by simp [hf]))
      refine ⟨r :: rs, ?_, e2, e4⟩
      simp only [List.map_cons, e3, e1]
  exact key files (fun _ h => h)

theorem csvFiles_headers {m : SrcClass} {p : CsvParams} {o : CsvOpts} (hp : Plainly p o) (files : List (CsvFile m)) (hg : ∀ f ∈ files, f.Good p) :
    ∀ h, o.headerRow = some h →
      ∀ xs ∈ (files.map fun f => (rowLines p.delimiter p.quote f.table).map fun b => (⟨0, b⟩ : Record)),
        HeaderOk o h xs := by
  intro h _ xs hxs hdr hh
  obtain ⟨f, hfm, rfl⟩ := List.mem_map.1 hxs
  rw [List.getElem?_map] at hh
  cases hrow : (rowLines p.delimiter p.quote f.table)[h]? with
  | none => rw [hrow] at hh; cases hh
  | some row =>
    rw [hrow] at hh
    cases hh
    rw [(sheet_fields hp (hg f hfm).sheet).2 row (List.mem_of_getElem? hrow)]

/-- Every epoch of the core reader has the data rows of the tables. -/
theorem csvCore_renews {m : SrcClass} {p : CsvParams} {o : CsvOpts} (hp : Plainly p o) (files : List (CsvFile m)) (hg : ∀ f ∈ files, f.Good p)
    (hsingle : o.singleHeader = true → ∀ h f, o.headerRow = some h → files.head? = some f →
      o.columnNames ≠ [] ∨ h < f.table.values.length) :
    ∃ fuel0, ∀ fuel, fuel0 ≤ fuel →
      (csvCore unicodeCodec m p o none fuel (files.map fun f => f.file.stream)).Renews (rowInstances (dataBytes p o files)) := by
  refine ⟨(files.map fun f => (f.table.bytes p.delimiter p.quote).length).sum +
    (files.map fun f => f.file.bytes.length).sum + (dataBytes p o files).flatten.length + 5,
    fun fuel hf => ?_⟩
  obtain ⟨rs, h1, h2⟩ := csvFiles_hold hp files hg fuel (by omega)
  have hok := csvFiles_headers hp files hg
  have epoch : ∀ hist, (csvCore unicodeCodec m p o none fuel (files.map fun f => f.file.stream)).Yields (.fresh, hist)
      (rowInstances (dataBytes p o files)) (.ok none) := by
    intro hist
    obtain ⟨rs', g1, g2⟩ := C35_data_rows_partial o (lineMachine unicodeCodec m (csvDecode p) fuel) rs _ h2 hok (by
      intro hs h xs hh hx
      cases files with
      | nil => cases hx
      | cons f fs =>
        simp only [List.map_cons, List.head?_cons, Option.some.injEq] at hx
        rcases hsingle hs h f hh rfl with h | h
        · exact Or.inl h
        · right
          rw [← hx, List.length_map]
          rw [← (sheet_fields hp (hg f (by simp)).sheet).1, List.length_map] at h
          exact h) hist
    have e : openEpoch o (lineMachine unicodeCodec m (csvDecode p) fuel)
        ((files.map fun f => f.file.stream).map (openLines unicodeCodec m fuel none)) hist =
        rs'.map (fun r => Res.ok (some r)) := by
      have g2 := openEpoch_ok o (lineMachine unicodeCodec m (csvDecode p) fuel) rs rs' hist g1
      exact Eq.trans (congrArg (fun l => openEpoch o (lineMachine unicodeCodec m (csvDecode p) fuel) l hist) h1) g2
    have hd : ((files.map fun f => (rowLines p.delimiter p.quote f.table).map fun b => (⟨0, b⟩ : Record)).zipIdx.map
        (fun q => dataRows o q.2 q.1)) = (dataBytes p o files).map (fun xs => xs.map fun b => (⟨0, b⟩ : Record)) := by
      unfold dataBytes
      rw [List.zipIdx_map, List.map_map, List.map_map]
      apply List.map_congr_left
      intro q _
      simp only [Function.comp_apply, Prod.map]
      exact dataRows_map _ o q.2 _
    rw [hd] at g2
    have := core_rows _ rs' _ g2 fuel (by omega)
    intro n
    refine (csvCore_outs _ _ _ _ _ _ _ _ _).trans ?_
    exact (congrArg (fun l => (coreReader (lineMachine unicodeCodec m (csvDecode p) fuel) l fuel).outs n .fresh) e).trans (this n)
  exact ⟨epoch [], fun s => epoch _⟩

/-! ## Decoding -/

/-- The examples of the deliverable batches, whatever the errors are. -/
theorem examples_deliverable_any {β γ ε : Type} (dec : β → Except Err (Option ε)) (f : β → γ) (good : γ → Bool)
    (h : BadHandling) (Pr : γ → ε → Prop) (qs : List β)
    (hd : ∀ q ∈ qs, if good (f q) || h == .pad || h == .padWarn then ∃ ex, dec q = .ok (some ex) ∧ Pr (f q) ex
      else if h = .error then ∃ e, dec q = .error e else dec q = .ok none) :
    (examples dec qs).length = (deliverable good h (qs.map f)).length ∧
    ∀ (i : Nat) ex, (examples dec qs)[i]? = some ex → ∃ q, (deliverable good h (qs.map f))[i]? = some q ∧ Pr q ex := by
  induction qs with
  | nil => cases h <;> exact ⟨rfl, fun i ex h => by simp [examples] at h⟩
  | cons q qs ih =>
    have h0 := hd q (by simp)
    obtain ⟨i1, i2⟩ := ih (fun q hq => hd q (by simp [hq]))
    -- a batch that is delivered
    have del : ∀ rest, (examples dec qs).length = rest.length →
        (∀ (i : Nat) ex, (examples dec qs)[i]? = some ex → ∃ q, rest[i]? = some q ∧ Pr q ex) →
        (∃ ex, dec q = .ok (some ex) ∧ Pr (f q) ex) →
        (examples dec (q :: qs)).length = (f q :: rest).length ∧
        ∀ (i : Nat) ex, (examples dec (q :: qs))[i]? = some ex → ∃ q', (f q :: rest)[i]? = some q' ∧ Pr q' ex := by
      rintro rest r1 r2 ⟨ex, e1, e2⟩
      simp only [examples, e1]
      refine ⟨by simp [r1], fun i ex' hi => ?_⟩
      cases i with
      | zero => simp at hi; subst hi; exact ⟨f q, rfl, e2⟩
      | succ i => simpa using r2 i ex' (by simpa using hi)
    cases hg : good (f q) with
    | true =>
      simp only [hg, Bool.true_or, if_true] at h0
      cases h <;> simp only [deliverable, List.map_cons, List.takeWhile_cons, List.filter_cons, hg, if_true] at i1 i2 ⊢ <;>
        exact del _ i1 i2 h0
    | false =>
      cases h <;> simp only [hg, deliverable, List.map_cons, List.takeWhile_cons, List.filter_cons, Bool.false_or,
        Bool.or_self, if_true, if_false, reduceCtorEq, Bool.false_eq_true, beq_iff_eq, Bool.or_eq_true, or_false, or_true,
        false_or, true_or] at i1 i2 h0 ⊢
      · obtain ⟨e, h0⟩ := h0
        simp [examples, h0]
      · simp only [examples, h0]; exact ⟨i1, i2⟩
      · simp only [examples, h0]; exact ⟨i1, i2⟩
      · exact del _ i1 i2 h0
      · exact del _ i1 i2 h0

theorem examples_deliverable {β γ ε : Type} (dec : β → Except Err (Option ε)) (f : β → γ) (good : γ → Bool)
    (h : BadHandling) (Pr : γ → ε → Prop) (qs : List β)
    (hd : ∀ q ∈ qs, if good (f q) || h == .pad || h == .padWarn then ∃ ex, dec q = .ok (some ex) ∧ Pr (f q) ex
      else if h = .error then dec q = .error .invalidInstance else dec q = .ok none) :
    (examples dec qs).length = (deliverable good h (qs.map f)).length ∧
    ∀ (i : Nat) ex, (examples dec qs)[i]? = some ex → ∃ q, (deliverable good h (qs.map f))[i]? = some q ∧ Pr q ex := by
  refine examples_deliverable_any dec f good h Pr qs fun q hq => ?_
  have := hd q hq
  split at this
  · next hc => rw [if_pos hc]; exact this
  · next hc =>
    rw [if_neg hc]
    split at this
    · next he => rw [if_pos he]; exact ⟨_, this⟩
    · next he => rw [if_neg he]; exact this

theorem batches_mem {α : Type} (b : Nat) (hb : 0 < b) (l : LastHandling) (xs : List α) :
    ∀ q ∈ batches b l xs, ∀ x ∈ q.instances, x ∈ xs := by
  intro q hq x hx
  unfold batches batchesFrom at hq
  obtain ⟨p, hp, rfl⟩ := List.mem_map.1 hq
  have hp := (List.mem_filter.1 hp).1
  have hm : p.1 ∈ blocks b xs := by
    obtain ⟨y, i⟩ := p
    exact (List.mem_zipIdx' hp).2 ▸ List.getElem_mem _
  have := flatten_blocks b hb xs.length xs (Nat.le_refl _)
  rw [← this]
  exact List.mem_flatten.2 ⟨p.1, hm, hx⟩

theorem selected_mem {α : Type} (o : ReadOptions) (xs : List α) : ∀ x ∈ selected o xs, x ∈ xs := by
  have h1 : ∀ x ∈ range o.toSkip o.toRead xs, x ∈ xs := by
    intro x hx
    unfold range at hx
    split at hx
    · exact List.mem_of_mem_drop hx
    · exact List.mem_of_mem_drop (List.mem_of_mem_take hx)
  have h2 : ∀ (n k : Nat) (ys : List α), ∀ x ∈ shard n k ys, x ∈ ys := by
    intro n k ys x hx
    obtain ⟨⟨y, i⟩, hp, rfl⟩ := List.mem_map.1 hx
    have hp := (List.mem_filter.1 hp).1
    exact (List.mem_zipIdx' hp).2 ▸ List.getElem_mem _
  have h3 : ∀ (kp : Nat → Nat) (ys : List α), ∀ x ∈ sample kp ys, x ∈ ys := by
    intro kp ys x hx
    obtain ⟨q, hq, hx⟩ := List.mem_flatMap.1 hx
    rw [← flatten_blocks 100 (by decide) ys.length ys (Nat.le_refl _)]
    exact List.mem_flatten.2 ⟨q, hq, List.mem_of_mem_take hx⟩
  have h4 : ∀ x ∈ (if o.numShards > 1 then shard o.numShards o.shardIndex (range o.toSkip o.toRead xs)
      else range o.toSkip o.toRead xs), x ∈ xs := by
    intro x hx
    split at hx
    · exact h1 x (h2 _ _ _ x hx)
    · exact h1 x hx
  intro x hx
  unfold selected at hx
  simp only at hx
  split at hx
  · exact h4 x (h3 _ _ x hx)
  · exact h4 x hx

theorem epochOrder_mem {α : Type} (o : ReadOptions) (xs ys : List α) (h : EpochOrder o xs ys) : ∀ x ∈ ys, x ∈ xs := by
  unfold EpochOrder at h
  split at h
  · rw [h]; exact fun x hx => hx
  · exact fun x hx => h.1.mem_iff.1 hx

/-- Decoding a batch whose rows have fields. -/
theorem csvDecodes_batch {V : Type} {tok : TokParams} {limit : FieldLimit} {warnBad : Bool} {h : BadHandling}
    {cols : List (CsvCol V)} {dflt : V} {dec : Batch Inst → Except Err (Option (CsvExample V))}
    (hd : CsvDecodes tok limit warnBad h cols dflt dec) (q : Batch Inst) (hq : q.instances.length ≤ q.size)
    (hrows : ∀ i ∈ q.instances, tokenize tok (i.bits.getD []) =
        ((rowFields tok (i.bits.getD [])).map (cutField tok.maxField), .ok ())) :
    if goodBatch tok.maxField limit cols (q.map fun i => rowFields tok (i.bits.getD [])) || h == .pad || h == .padWarn then
      ∃ ex, dec q = .ok (some ex) ∧ HoldsRows tok.maxField limit cols (q.map fun i => rowFields tok (i.bits.getD [])) ex
    else if h = .error then dec q = .error .invalidInstance else dec q = .ok none := by
  obtain ⟨o, h1, h2⟩ := hd q
  have hlen : (q.instances.map fun i => i.bits.getD []).length ≤ q.size := by rw [List.length_map]; exact hq
  have ht : ∀ row ∈ (q.instances.map fun i => i.bits.getD []), tokenize tok row =
      ((rowFields tok row).map (cutField tok.maxField), .ok ()) := by
    intro row hr
    obtain ⟨i, hi, rfl⟩ := List.mem_map.1 hr
    exact hrows i hi
  have hmap : (q.map fun i => rowFields tok (i.bits.getD [])).instances =
      (q.instances.map fun i => i.bits.getD []).map (rowFields tok) := by
    simp [Batch.map]
  have hsize : (q.map fun i => rowFields tok (i.bits.getD [])).size = q.size := rfl
  unfold HoldsRows goodBatch
  rw [hmap, hsize]
  generalize (q.instances.map fun i => i.bits.getD []) = rows at h1 hlen ht ⊢
  have hgood : ∀ row ∈ rows, goodRow tok.maxField limit cols (rowFields tok row) = decide (WellFormed limit cols (tokenize tok row).1) := by
    intro row hr
    unfold goodRow
    rw [ht row hr]
  have hfil : (rows.map (rowFields tok)).filter (goodRow tok.maxField limit cols) =
      (rows.filter fun row => decide (WellFormed limit cols (tokenize tok row).1)).map (rowFields tok) := by
    rw [List.filter_map]
    congr 1
    apply List.filter_congr
    exact hgood
  rw [hfil]
  have cellOf : ∀ (ex : CsvExample V) (good : List Bytes), (∀ row ∈ good, row ∈ rows) →
      (∀ k (j : Nat) row v, good[j]? = some row → (usedValues cols (tokenize tok row).1)[k]? = some v →
        ex.tensors.cell k j = v) →
      ∀ k (j : Nat) vs v, (good.map (rowFields tok))[j]? = some vs →
        (usedValues cols (vs.map (cutField tok.maxField)))[k]? = some v → ex.tensors.cell k j = v := by
    intro ex good hm hc k j vs v hj hv
    rw [List.getElem?_map] at hj
    cases hrow : good[j]? with
    | none => rw [hrow] at hj; cases hj
    | some row =>
      rw [hrow] at hj
      cases hj
      refine hc k j row v hrow ?_
      rw [ht row (hm row (List.mem_of_getElem? hrow))]
      exact hv
  by_cases hall : ∀ row ∈ rows, WellFormed limit cols (tokenize tok row).1
  · rw [if_pos (by
      rw [Bool.or_assoc, Bool.or_eq_true]; left
      rw [List.all_eq_true]
      intro vs hvs
      obtain ⟨row, hr, rfl⟩ := List.mem_map.1 hvs
      rw [hgood row hr]
      exact decide_eq_true (hall row hr))]
    have hid : (rows.filter fun row => decide (WellFormed limit cols (tokenize tok row).1)) = rows :=
      List.filter_eq_self.2 fun row hr => decide_eq_true (hall row hr)
    rw [hid]
    obtain ⟨ex, rfl, e1, e2, e3⟩ := C31_good_batch tok limit warnBad h cols dflt q.size rows hlen
      (fun row hr => ⟨_, ht row hr, by have := hall row hr; rw [ht row hr] at this; exact this⟩) o h1
    refine ⟨ex, by rw [h2]; rfl, by rw [e1, List.length_map], cellOf ex rows (fun _ h => h) e2, ?_⟩
    intro k r c hr hc
    rw [List.length_map] at hr
    exact e3 k r c (by rcases hr with h | h <;> omega) hc
  · have hbad : ∃ row ∈ rows, ¬ WellFormed limit cols (tokenize tok row).1 := by
      refine Classical.byContradiction fun hn => hall fun row hr => ?_
      exact Classical.byContradiction fun hw => hn ⟨row, hr, hw⟩
    have hng : (rows.map (rowFields tok)).all (goodRow tok.maxField limit cols) = false := by
      obtain ⟨row, hr, hw⟩ := hbad
      rw [List.all_eq_false]
      refine ⟨rowFields tok row, List.mem_map.2 ⟨row, hr, rfl⟩, ?_⟩
      rw [hgood row hr, decide_eq_true_iff]
      exact hw
    rw [hng]
    have ht' : ∀ row ∈ rows, (tokenize tok row).2 = .ok () := fun row hr => by rw [ht row hr]
    have key := C32_bad_rows_partial tok limit warnBad h cols dflt q.size rows hlen ht' hbad o h1
    have pad : h = .pad ∨ h = .padWarn → ∃ ex, dec q = .ok (some ex) ∧
        ex.padding = q.size - ((rows.filter fun row => decide (WellFormed limit cols (tokenize tok row).1)).map (rowFields tok)).length ∧
        (∀ k (j : Nat) vs v, ((rows.filter fun row => decide (WellFormed limit cols (tokenize tok row).1)).map (rowFields tok))[j]? = some vs →
          (usedValues cols (vs.map (cutField tok.maxField)))[k]? = some v → ex.tensors.cell k j = v) ∧
        ∀ k r c, (((rows.filter fun row => decide (WellFormed limit cols (tokenize tok row).1)).map (rowFields tok)).length < r ∨
            (((rows.filter fun row => decide (WellFormed limit cols (tokenize tok row).1)).map (rowFields tok)).length = r ∧
              ∀ vs, (rows.map (rowFields tok)).getLast? = some vs → goodRow tok.maxField limit cols vs = true)) →
          (cols.filter (fun c => !c.ignore))[k]? = some c → ex.tensors.cell k r = c.zero := by
      intro hh
      obtain ⟨ex, rfl, e1, e2, e3, e4⟩ := C31_padded_batch_partial tok limit warnBad h hh cols dflt q.size rows hlen ht' _ rfl o h1
      refine ⟨ex, by rw [h2]; rfl, by rw [e1, List.length_map],
        cellOf ex _ (fun _ h => (List.mem_filter.1 h).1) e2, ?_⟩
      intro k r c hr hc
      rw [List.length_map] at hr
      rcases hr with hr | ⟨rfl, hr⟩
      · exact e3 k r c hr hc
      · refine e4 (fun row hl => ?_) k c hc
        have hm := List.mem_of_getLast? hl
        refine List.mem_filter.2 ⟨hm, ?_⟩
        rw [← hgood row hm]
        exact hr _ (by rw [List.getLast?_map, hl]; rfl)
    cases h with
    | error =>
      simp only at key
      subst key
      exact h2
    | skip =>
      simp only at key
      subst key
      exact h2
    | skipWarn =>
      simp only at key
      subst key
      exact h2
    | pad => exact pad (Or.inl rfl)
    | padWarn => exact pad (Or.inr rfl)

end Mlio
