import Verif.Props.Text
import Verif.Proofs.Tokenizer

/-! # C07 – C12: CSV rows and fields -/

namespace Mlio

open Spec

/-! ## C07 -/

/-- **C07**, partial.  With quoted newlines, the rows and errors read through chunks of any size and any
short reads are those of the text read at once, if the byte order mark does not stand behind a line break or at the
start (except one mark in front of the text), and one of: there is no comment character; the text has no CRLF; blank lines are skipped (without line
limit).  Missing: the remaining cases, where the claim is false (`C07_comment_violated`,
`C07_bom_violated`). -/
theorem C07_quoted_chunk_independent_partial (p : CsvParams) (_hq : p.quotedNewLines = true)
    (data : Bytes)
    (hc : p.comment = none ∨ ¬ [13, 10] <:+: data ∨
      (p.skipBlank = true ∧ p.maxLine = none ∧ p.delimiter ≠ 10 ∧ p.quote ≠ 10))
    (hbom : NoLineMark data ∨ ∃ y, data = utf8Bom ++ y ∧ NoLineMark y)
    (size : Nat) (hsize : 0 < size) (sched : List Nat) (n : Nat) :
    (Reader.init size data sched).readN (csvDecode p) n =
      MemReader.readN (csvDecode p) n ⟨data, []⟩ ∧
    (Reader.init size data sched).readN (csvDecode p) n = wholeN (csvDecode p) n data := by
  have hg : CsvGood p data := by
    refine ⟨?_, bomOk_of_noLineMark hbom p⟩
    rcases hc with h | h | h
    · exact Or.inr (Or.inl ⟨_hq, h⟩)
    · exact Or.inl h
    · exact Or.inr (Or.inr h)
  rw [csv_memReadN]
  exact ⟨csv_readN p data size hsize sched n hg, csv_readN p data size hsize sched n hg⟩

-- A test: a quoted newline and a CRLF, read one byte at a time.
example : (Reader.init 1 [34, 97, 10, 98, 34, 13, 10, 99] []).readN
      (csvDecode { quotedNewLines := true, skipBlank := false }) 3 =
    [.ok (some ⟨0, [34, 97, 10, 98, 34]⟩), .ok (some ⟨0, [99]⟩), .ok none] := by decide

/-- **C07 is violated**: the CRLF of a comment line on a chunk edge gives an extra empty row. -/
theorem C07_comment_violated :
    (Reader.init 4 [35, 97, 97, 13, 10, 98] []).readN
        (csvDecode { quotedNewLines := true, skipBlank := false, comment := some 35 }) 3 =
      [.ok (some ⟨0, []⟩), .ok (some ⟨0, [98]⟩), .ok none] ∧
    MemReader.readN (csvDecode { quotedNewLines := true, skipBlank := false, comment := some 35 }) 3
        ⟨[35, 97, 97, 13, 10, 98], []⟩ =
      [.ok (some ⟨0, [98]⟩), .ok none, .ok none] := by decide

/-- **C07 is violated**: a byte order mark that is data is removed or not depending on the chunks.  (The mark
is doubled; the second one is removed when decoding is retried with a larger chunk.) -/
theorem C07_bom_violated :
    (Reader.init 6 [0xEF, 0xBB, 0xBF, 0xEF, 0xBB, 0xBF, 97, 10] []).readN
        (csvDecode { quotedNewLines := true }) 1 = [.ok (some ⟨0, [97]⟩)] ∧
    MemReader.readN (csvDecode { quotedNewLines := true }) 1
        ⟨[0xEF, 0xBB, 0xBF, 0xEF, 0xBB, 0xBF, 97, 10], []⟩ =
      [.ok (some ⟨0, [0xEF, 0xBB, 0xBF, 97]⟩)] := by decide

/-! ## C08 -/

/-- **C08.** Tokenizing a written row gives back the fields, untruncated, and then the end of the row. -/
theorem C08_tokenize_inverts_quoting (p : TokParams) (hm : p.maxField = none)
    (hdq : p.delimiter ≠ p.quote)
    (fs : List Field) (hne : fs ≠ []) (hf : ∀ f ∈ fs, f.Ok p.delimiter p.quote) :
    tokenize p (rowBytes p.delimiter p.quote fs) = (fs.map fun f => (f.value, false), .ok ()) :=
  tokenize_row p hm hdq fs hne hf

/-- Every list of values can be written: quoting all of them always is allowed. -/
theorem C08_always_writable (d q : UInt8) (vs : List Bytes) :
    ∀ f ∈ vs.map (fun v => (⟨v, true⟩ : Field)), f.Ok d q ∧ f.NoBreak := by
  intro f hf
  obtain ⟨v, _, rfl⟩ := List.mem_map.1 hf
  exact ⟨Or.inl rfl, Or.inl rfl⟩

-- `a,"b"",\n",` : three fields, the second with a quote, a delimiter and a newline, the third empty.
example : (∀ f ∈ [(⟨[97], false⟩ : Field), ⟨[98, 34, 44, 10], true⟩, ⟨[], false⟩], f.Ok 44 34) ∧
    rowBytes 44 34 [⟨[97], false⟩, ⟨[98, 34, 44, 10], true⟩, ⟨[], false⟩] =
      [97, 44, 34, 98, 34, 34, 44, 10, 34, 44] ∧
    tokenize {} [97, 44, 34, 98, 34, 34, 44, 10, 34, 44] =
      ([([97], false), ([98, 34, 44, 10], false), ([], false)], .ok ()) := by
  refine ⟨by simp [Field.Ok], by decide, by decide⟩

/-! ## C09 -/

/-- The values of the row in an outcome of the record reader. -/
def rowValues (tp : TokParams) : Res (Option Record) → Res (Option (List Bytes))
  | .ok (some r) =>
    match tokenize tp r.payload with
    | (vs, .ok ()) => .ok (some (vs.map Prod.fst))
    | (_, .err e) => .err e
    | (_, .ub w) => .ub w
  | .ok none => .ok none
  | .err e => .err e
  | .ub w => .ub w

theorem rowBytes_head (d q : UInt8) (hd : d ≠ 10) (hq : q ≠ 10) (fs : List Field)
    (hf : ∀ f ∈ fs, f.Ok d q ∧ f.NoBreak) : (rowBytes d q fs).head? ≠ some 10 := by
  have hfield : ∀ f : Field, f.Ok d q ∧ f.NoBreak → (f.bytes q).head? ≠ some 10 := by
    rintro ⟨v, qd⟩ ⟨hok, hnb⟩
    cases qd with
    | true => simpa [Field.bytes] using hq
    | false =>
      rcases hnb with h | h
      · simp at h
      · simpa [Field.bytes] using plain_noLf v h
  match fs with
  | [] => simp [rowBytes]
  | [f] => simpa [rowBytes] using hfield f (hf f (by simp))
  | f :: g :: fs =>
    have := hfield f (hf f (by simp))
    simp only [rowBytes]
    cases hb : f.bytes q with
    | nil => simpa using hd
    | cons c cs => rw [hb] at this; simpa using this

theorem table_linesOk (p : CsvParams) (hqn : p.quotedNewLines = true) (hm : p.maxLine = none)
    (hc : p.comment = none) (hdq : p.delimiter ≠ p.quote)
    (hd : p.delimiter ≠ 10 ∧ p.delimiter ≠ 13) (hq : p.quote ≠ 10 ∧ p.quote ≠ 13)
    (t : Table) (hv : t.Valid p.delimiter p.quote)
    (hb : ∀ l ∈ (t.text p.delimiter p.quote).content, ¬ utf8Bom <+: l) :
    LinesOk p (t.text p.delimiter p.quote) := by
  refine ⟨?_, hv.unambiguous, by simp [hc]⟩
  intro b hmem
  obtain ⟨fs, rfl, hfs⟩ : ∃ fs, b = rowBytes p.delimiter p.quote fs ∧
      ∀ f ∈ fs, f.Ok p.delimiter p.quote ∧ f.NoBreak := by
    rcases hmem with h | h
    · simp only [Table.text, List.map_map, List.mem_map] at h
      obtain ⟨r, hr, rfl⟩ := h
      exact ⟨r.1, rfl, hv.fields r hr⟩
    · exact ⟨t.last, h, hv.fieldsLast⟩
  obtain ⟨st0, hu, hscan⟩ := qScan_row p hdq fs hfs 0
  rw [Nat.zero_add] at hscan
  refine ⟨?_, rowBytes_head _ _ hd.1 hq.1 fs hfs, ?_⟩
  · simp only [hc, Option.isSome_none, Bool.false_and, Bool.false_eq_true, if_false]
    constructor
    · intro tm x hx
      simp only [rowReader, hqn, if_true]
      exact csvReadLine_term p hm hd hq _ st0 hu hscan tm x hx
    · intro hne
      simp only [rowReader, hqn, if_true]
      exact csvReadLine_last p hm _ hne st0 hu hscan
  · by_cases he : rowBytes p.delimiter p.quote fs = []
    · rw [he]; simp [bom]
    · apply hb
      rcases hmem with h | h
      · simp only [Text.content, List.mem_append]; exact Or.inl h
      · rw [h] at he
        simp only [Text.content, List.mem_append]
        right
        rw [if_neg he, ← h]
        simp

/-- **C09**, partial.  A table written as CSV – each field plain or quoted, each row with any terminator – and read with
quoted newlines allowed gives back the rows and values of the table, then the end of data.
The side conditions: the delimiter differs from the quote and neither is a line break; no comment
character and no line limit; no row looks like an empty line if those are skipped; no row starts with the
byte order mark (it would be removed, `C09_bom_violated`). -/
theorem C09_csv_roundtrip_partial (p : CsvParams) (hqn : p.quotedNewLines = true) (hm : p.maxLine = none)
    (hc : p.comment = none) (hdq : p.delimiter ≠ p.quote)
    (hd : p.delimiter ≠ 10 ∧ p.delimiter ≠ 13) (hq : p.quote ≠ 10 ∧ p.quote ≠ 13)
    (tp : TokParams) (htp : tp = ⟨p.delimiter, p.quote, none⟩)
    (t : Table) (hv : t.Valid p.delimiter p.quote)
    (hblank : p.skipBlank = true → ∀ r ∈ t.rows, rowBytes p.delimiter p.quote r.1 ≠ [])
    (hb : ∀ l ∈ (t.text p.delimiter p.quote).content, ¬ utf8Bom <+: l) (k : Nat) :
    (MemReader.readN (csvDecode p) (t.values.length + k) ⟨t.bytes p.delimiter p.quote, []⟩).map
        (rowValues tp) =
      t.values.map (fun vs => .ok (some vs)) ++ List.replicate k (.ok none) := by
  have hl := table_linesOk p hqn hm hc hdq hd hq t hv hb
  have hfil : (t.text p.delimiter p.quote).content.filter (isRow p.comment p.skipBlank) =
      (t.text p.delimiter p.quote).content := by
    apply List.filter_eq_self.2
    intro l hmem
    simp only [isRow, hc, Option.isSome_none, Bool.false_and, Bool.not_false, Bool.true_and,
      Bool.not_eq_true', Bool.and_eq_false_iff]
    by_cases hs : p.skipBlank = true
    · right
      simp only [Text.content, List.mem_append] at hmem
      rcases hmem with hmem | hmem
      · simp only [Table.text, List.map_map, List.mem_map] at hmem
        obtain ⟨r, hr, rfl⟩ := hmem
        simpa using hblank hs r hr
      · by_cases hne : (t.text p.delimiter p.quote).last = []
        · rw [if_pos hne] at hmem; simp at hmem
        · rw [if_neg hne] at hmem
          simp only [List.mem_singleton] at hmem
          subst hmem
          simpa using hne
    · left; simpa using hs
  have hlen : (t.text p.delimiter p.quote).content.length = t.values.length := by
    by_cases h1 : t.last = []
    · simp [Text.content, Table.text, Table.values, h1, rowBytes]
    · simp [Text.content, Table.text, Table.values, h1, hv.nonemptyLast h1]
  have := csv_lines p _ hl k
  rw [hfil, hlen] at this
  rw [csv_memReadN, Table.bytes, this, List.map_append, List.map_map]
  congr 1
  · have htok : ∀ fs : List Field, fs ≠ [] → (∀ f ∈ fs, f.Ok p.delimiter p.quote ∧ f.NoBreak) →
        rowValues tp (.ok (some ⟨0, rowBytes p.delimiter p.quote fs⟩)) =
          .ok (some (fs.map Field.value)) := by
      intro fs hne hfs
      have := tokenize_row ⟨p.delimiter, p.quote, none⟩ rfl hdq fs hne (fun f hf => (hfs f hf).1)
      simp only at this
      simp only [rowValues, htp, this, List.map_map]
      congr 1
    simp only [Text.content, Table.text, Table.values, List.map_append, List.map_map]
    congr 1
    · apply List.map_congr_left
      intro r hr
      exact htok r.1 (hv.nonempty r hr) (hv.fields r hr)
    · by_cases h1 : t.last = []
      · simp [h1, rowBytes]
      · simp only [h1, hv.nonemptyLast h1, if_false, List.map_cons, List.map_nil]
        exact congrArg (· :: []) (htok t.last h1 hv.fieldsLast)
  · simp [rowValues]

/-- **C09** through chunks of any size and any short reads. -/
theorem C09_csv_roundtrip_chunked_partial (p : CsvParams) (hqn : p.quotedNewLines = true)
    (hm : p.maxLine = none)
    (hc : p.comment = none) (hdq : p.delimiter ≠ p.quote)
    (hd : p.delimiter ≠ 10 ∧ p.delimiter ≠ 13) (hq : p.quote ≠ 10 ∧ p.quote ≠ 13)
    (tp : TokParams) (htp : tp = ⟨p.delimiter, p.quote, none⟩)
    (t : Table) (hv : t.Valid p.delimiter p.quote)
    (hblank : p.skipBlank = true → ∀ r ∈ t.rows, rowBytes p.delimiter p.quote r.1 ≠ [])
    (hb : ∀ l ∈ (t.text p.delimiter p.quote).content, ¬ utf8Bom <+: l)
    (size : Nat) (hsize : 0 < size) (sched : List Nat) (k : Nat) :
    ((Reader.init size (t.bytes p.delimiter p.quote) sched).readN (csvDecode p)
        (t.values.length + k)).map (rowValues tp) =
      t.values.map (fun vs => .ok (some vs)) ++ List.replicate k (.ok none) := by
  rw [csv_readN p (t.bytes p.delimiter p.quote) size hsize sched _ ⟨Or.inr (Or.inl ⟨hqn, hc⟩), Or.inl (table_linesOk p hqn hm hc hdq hd hq t hv hb).markFree⟩, ← csv_memReadN]
  exact C09_csv_roundtrip_partial p hqn hm hc hdq hd hq tp htp t hv hblank hb k

-- Two rows, embedded delimiter, quote and line breaks, three terminators.
example : (⟨[([⟨[97], false⟩, ⟨[98, 44, 34, 13, 10], true⟩], .crlf), ([⟨[], true⟩], .cr)],
    [⟨[99], false⟩]⟩ : Table).Valid 44 34 := by
  refine ⟨?_, ?_, ?_, ?_, ?_⟩ <;>
    simp [rowBytes, Field.bytes, Field.Ok, Field.NoBreak, Plain, Table.text, Unambiguous]

example : ((Reader.init 2 ((⟨[([⟨[97], false⟩, ⟨[98, 44, 34, 13, 10], true⟩], .crlf)],
      [⟨[99], false⟩]⟩ : Table).bytes 44 34) [1]).readN (csvDecode { quotedNewLines := true }) 3).map
        (rowValues {}) =
    [.ok (some [[97], [98, 44, 34, 13, 10]]), .ok (some [[99]]), .ok none] := by decide

/-- All fields are written in quotes. -/
def AllQuoted (t : Table) : Prop :=
  (∀ r ∈ t.rows, ∀ f ∈ r.1, f.quoted = true) ∧ ∀ f ∈ t.last, f.quoted = true

theorem allQuoted_row {d q : UInt8} {fs : List Field} (hne : fs ≠ []) (h : ∀ f ∈ fs, f.quoted = true) :
    ∃ x, rowBytes d q fs = q :: x := by
  cases fs with
  | nil => exact absurd rfl hne
  | cons f fs =>
    have hf := h f (by simp)
    cases fs <;> simp [rowBytes, Field.bytes, hf]

theorem allQuoted_content {d q : UInt8} {t : Table} (hv : t.Valid d q) (h : AllQuoted t) :
    ∀ l ∈ (t.text d q).content, ∃ x, l = q :: x := by
  intro l hl
  simp only [Text.content, Table.text, List.map_map, List.mem_append, List.mem_map] at hl
  rcases hl with ⟨r, hr, rfl⟩ | hl
  · exact allQuoted_row (hv.nonempty r hr) (h.1 r hr)
  · by_cases hn : t.last = []
    · simp [hn, rowBytes] at hl
    · obtain ⟨x, hx⟩ := allQuoted_row (d := d) (q := q) hn h.2
      simp [hx] at hl
      exact ⟨x, hl⟩

/-- **C09** for tables written with all fields in quotes: any values, whatever bytes they have, whether blank
lines are skipped or not, through any chunks and short reads and in memory. -/
theorem C09_quoted_roundtrip (p : CsvParams) (hqn : p.quotedNewLines = true) (hm : p.maxLine = none)
    (hc : p.comment = none) (hdq : p.delimiter ≠ p.quote)
    (hd : p.delimiter ≠ 10 ∧ p.delimiter ≠ 13) (hq : p.quote ≠ 10 ∧ p.quote ≠ 13) (hqb : p.quote ≠ 0xEF)
    (tp : TokParams) (htp : tp = ⟨p.delimiter, p.quote, none⟩)
    (rows : List (List Bytes × Term)) (hne : ∀ r ∈ rows, r.1 ≠ []) (k : Nat) :
    let t : Table := ⟨rows.map fun r => (r.1.map fun v => ⟨v, true⟩, r.2), []⟩
    (∀ (size : Nat), 0 < size → ∀ sched : List Nat,
      ((Reader.init size (t.bytes p.delimiter p.quote) sched).readN (csvDecode p) (rows.length + k)).map (rowValues tp) =
        rows.map (fun r => .ok (some r.1)) ++ List.replicate k (.ok none)) ∧
    (MemReader.readN (csvDecode p) (rows.length + k) ⟨t.bytes p.delimiter p.quote, []⟩).map (rowValues tp) =
        rows.map (fun r => .ok (some r.1)) ++ List.replicate k (.ok none) := by
  intro t
  have hall : AllQuoted t := by
    refine ⟨?_, by simp [t]⟩
    intro r hr f hf
    obtain ⟨r', _, rfl⟩ := List.mem_map.1 hr
    obtain ⟨v, _, rfl⟩ := List.mem_map.1 hf
    rfl
  have hrow : ∀ r ∈ t.rows, r.1 ≠ [] := by
    intro r hr
    obtain ⟨r', h', rfl⟩ := List.mem_map.1 hr
    simpa using hne r' h'
  have hv : t.Valid p.delimiter p.quote := by
    refine ⟨hrow, by simp [t], ?_, by simp [t], ?_⟩
    · intro r hr f hf
      have := hall.1 r hr f hf
      simp [Field.Ok, Field.NoBreak, this]
    · have key : ∀ rs : List (List Field × Term), (∀ r ∈ rs, r.1 ≠ []) → (∀ r ∈ rs, ∀ f ∈ r.1, f.quoted = true) →
          Unambiguous (rs.map fun r => (rowBytes p.delimiter p.quote r.1, r.2)) := by
        intro rs
        induction rs with
        | nil => intro _ _; simp [Unambiguous]
        | cons r rs ih =>
          intro h1 h2
          have ih := ih (fun r hr => h1 r (List.mem_cons_of_mem _ hr)) (fun r hr => h2 r (List.mem_cons_of_mem _ hr))
          obtain ⟨fs, tm⟩ := r
          cases rs with
          | nil => cases tm <;> simp [Unambiguous]
          | cons r' rs =>
            obtain ⟨x, hx⟩ := allQuoted_row (d := p.delimiter) (q := p.quote) (h1 r' (by simp)) (h2 r' (by simp))
            obtain ⟨fs', tm'⟩ := r'
            simp only [List.map_cons] at ih ⊢
            cases tm <;> simp_all [Unambiguous]
      exact key t.rows hrow hall.1
  have hvals : t.values = rows.map fun r => r.1 := by
    simp [t, Table.values, List.map_map, Function.comp_def]
  have hlen : t.values.length = rows.length := by rw [hvals]; simp
  have hcont := allQuoted_content hv hall
  have hb : ∀ l ∈ (t.text p.delimiter p.quote).content, ¬ utf8Bom <+: l := by
    intro l hl hp
    obtain ⟨x, rfl⟩ := hcont l hl
    obtain ⟨y, hy⟩ := hp
    simp [utf8Bom] at hy
    exact hqb hy.1.symm
  have hblank : p.skipBlank = true → ∀ r ∈ t.rows, rowBytes p.delimiter p.quote r.1 ≠ [] := by
    intro _ r hr
    obtain ⟨x, hx⟩ := allQuoted_row (d := p.delimiter) (q := p.quote) (hrow r hr) (hall.1 r hr)
    simp [hx]
  have e1 := C09_csv_roundtrip_partial p hqn hm hc hdq hd hq tp htp t hv hblank hb k
  refine ⟨fun size hsize sched => ?_, ?_⟩
  · have e2 := C09_csv_roundtrip_chunked_partial p hqn hm hc hdq hd hq tp htp t hv hblank hb size hsize sched k
    rw [hlen, hvals, List.map_map] at e2
    exact e2
  · rw [hlen, hvals, List.map_map] at e1
    exact e1

-- A byte order mark, delimiters, quotes and line breaks in the values.
example : ((Reader.init 3 ((⟨[([⟨[0xEF, 0xBB, 0xBF, 34], true⟩, ⟨[44, 13, 10], true⟩], .crlf), ([⟨[], true⟩], .cr)],
      []⟩ : Table).bytes 44 34) [2, 1]).readN (csvDecode { quotedNewLines := true }) 3).map (rowValues {}) =
    [.ok (some [[0xEF, 0xBB, 0xBF, 34], [44, 13, 10]]), .ok (some [[]]), .ok none] := by decide

/-- **C09 is violated** when values are quoted only where CSV needs it: a byte order mark at the start of the first
value of a row is lost, in any row. -/
theorem C09_bom_violated :
    let t : Table := ⟨[([⟨[97], false⟩], .lf), ([⟨[0xEF, 0xBB, 0xBF, 98], false⟩], .lf)], []⟩
    t.Valid 44 34 ∧ t.values = [[[97]], [[0xEF, 0xBB, 0xBF, 98]]] ∧
    (MemReader.readN (csvDecode { quotedNewLines := true }) 3 ⟨t.bytes 44 34, []⟩).map (rowValues {}) =
      [.ok (some [[97]]), .ok (some [[98]]), .ok none] := by
  refine ⟨⟨?_, ?_, ?_, ?_, ?_⟩, by decide, by decide⟩ <;>
    simp [rowBytes, Field.Ok, Field.NoBreak, Plain, Table.text, Unambiguous]

/-! ## C10 -/

/-- **C10.** Every row read with quoted newlines allowed – through any chunks and short reads, from any text, with
any settings – tokenizes without error, whatever the field limit. -/
theorem C10_rows_tokenize (p : CsvParams) (hqn : p.quotedNewLines = true)
    (tp : TokParams) (hd : tp.delimiter = p.delimiter) (hq : tp.quote = p.quote)
    (data : Bytes) (r : Record) (n : Nat)
    (h : (∃ size sched, .ok (some r) ∈ (Reader.init size data sched).readN (csvDecode p) n) ∨
      .ok (some r) ∈ MemReader.readN (csvDecode p) n ⟨data, []⟩) :
    (tokenize tp r.payload).2 = .ok () := by
  obtain ⟨s, ig, rest, hdec⟩ : ∃ s ig rest, csvDecode p s ig = .got r rest := by
    rcases h with ⟨size, sched, h⟩ | h
    · exact readN_from_dec _ _ _ _ h
    · exact memReadN_from_dec _ _ _ _ h
  obtain ⟨c', rest', hrow, _, _⟩ := csvDecode_row p ig r s rest hdec
  simp only [rowReader, hqn, if_true] at hrow
  obtain ⟨st0, hu, hscan⟩ := csvReadLine_payload p c' ig r rest' hrow
  rw [tokenize_eq]
  exact fieldsFrom_of_qScan p tp hd hq r.payload .newField st0 0 _ ([], false) (by simp) hu hscan

-- Non-vacuity: such a row with a quoted newline.
example : .ok (some ⟨0, [34, 10, 34, 44]⟩) ∈
    (Reader.init 3 [34, 10, 34, 44, 10, 97] []).readN (csvDecode { quotedNewLines := true }) 2 := by
  decide

/-- Without quoted newlines the claim is false: the text `"a` is a row, and is not tokenizable. -/
theorem C10_unquoted_counterexample :
    MemReader.readN (csvDecode {}) 1 ⟨[34, 97, 10], []⟩ = [.ok (some ⟨0, [34, 97]⟩)] ∧
    (tokenize {} [34, 97]).2 = .err .corruptRecord := by decide

/-! ## C11 -/

/-- What is added to the length of the content before comparing with the limit. -/
def lengthExcess (quoted : Bool) (t : Term) : Nat :=
  if quoted then t.bytes.length else if t = .crlf then 1 else 0

/-- The exact criterion of the code: a first line with terminator is rejected as too large if and only if
the length of its content, plus one for CRLF (without quoted newlines) or plus the length of the
terminator (with quoted newlines), reaches the limit; otherwise it is returned. -/
theorem C11_line_limit_exact (p : CsvParams) (m : Nat) (hm : p.maxLine = some m)
    (hc : p.comment = none) (hdq : p.delimiter ≠ p.quote)
    (hd : p.delimiter ≠ 10 ∧ p.delimiter ≠ 13) (hq : p.quote ≠ 10 ∧ p.quote ≠ 13)
    (b : Bytes) (hne : b ≠ [])
    (hb : if p.quotedNewLines then ∃ fs : List Field, b = rowBytes p.delimiter p.quote fs ∧
        ∀ f ∈ fs, f.Ok p.delimiter p.quote ∧ f.NoBreak else Plain b)
    (t : Term) (x : Bytes) (hx : t = .cr → x.head? ≠ some 10) (hbom : ¬ utf8Bom <+: b) :
    MemReader.readN (csvDecode p) 1 ⟨b ++ t.bytes ++ x, []⟩ =
      if m ≤ b.length + lengthExcess p.quotedNewLines t then [.err .recordTooLarge]
      else [.ok (some ⟨0, b⟩)] := by
  have hnb : ¬ bom <+: b ++ t.bytes ++ x := fun h => hbom (bom_prefix_line b t x h)
  have hrow : rowReader p (b ++ t.bytes ++ x) false =
      if m ≤ b.length + lengthExcess p.quotedNewLines t then .fail .recordTooLarge (b ++ t.bytes ++ x)
      else .got ⟨0, b⟩ x := by
    cases hqn : p.quotedNewLines with
    | true =>
      rw [hqn, if_pos rfl] at hb
      obtain ⟨fs, rfl, hfs⟩ := hb
      obtain ⟨st0, hu, hscan⟩ := qScan_row p hdq fs hfs 0
      rw [Nat.zero_add] at hscan
      simp only [rowReader, hqn, if_true, lengthExcess]
      rw [csvReadLine_term_max p hd hq _ st0 hu hscan t x hx, hm]
      simp [tooLong]
    | false =>
      rw [hqn] at hb
      simp only [Bool.false_eq_true, if_false] at hb
      simp only [rowReader, hqn, Bool.false_eq_true, if_false, hm, lengthExcess]
      cases t with
      | lf =>
        have := readLine_lf b x hb false (some m)
        simpa [Term.bytes, tooLong] using this
      | crlf =>
        have := readLine_crlf b x hb false (some m)
        simpa [Term.bytes, tooLong] using this
      | cr =>
        have := readLine_cr b x hb (hx rfl) false (some m)
        simpa [Term.bytes, tooLong] using this
  have hdec := csvDecode_nobom p _ hnb
  rw [csvDecodeText_eq p _ false (by simp [hne])] at hdec
  simp only [isCommentLine, hc, Bool.false_eq_true, if_false] at hdec
  rw [hrow] at hdec
  rw [csv_memReadN]
  by_cases hle : m ≤ b.length + lengthExcess p.quotedNewLines t
  · simp only [hle, if_true] at hdec ⊢
    simp only [wholeN, wholeStep, hdec]
  · simp only [hle, if_false] at hdec ⊢
    have hemp : b.isEmpty = false := by cases b <;> simp_all
    simp only [hemp, Bool.not_false, Bool.or_true, if_true] at hdec
    simp only [wholeN, wholeStep, hdec]

/-- **C11**, partial: a line whose content is longer than the limit is rejected, and one that is shorter by
more than the terminator is accepted.  Missing: lines with length between `m - 2` and `m`
(`C11_violated`). -/
theorem C11_line_limit_partial (p : CsvParams) (m : Nat) (hm : p.maxLine = some m)
    (hc : p.comment = none) (hdq : p.delimiter ≠ p.quote)
    (hd : p.delimiter ≠ 10 ∧ p.delimiter ≠ 13) (hq : p.quote ≠ 10 ∧ p.quote ≠ 13)
    (b : Bytes) (hne : b ≠ [])
    (hb : if p.quotedNewLines then ∃ fs : List Field, b = rowBytes p.delimiter p.quote fs ∧
        ∀ f ∈ fs, f.Ok p.delimiter p.quote ∧ f.NoBreak else Plain b)
    (t : Term) (x : Bytes) (hx : t = .cr → x.head? ≠ some 10) (hbom : ¬ utf8Bom <+: b) :
    (m < b.length →
      MemReader.readN (csvDecode p) 1 ⟨b ++ t.bytes ++ x, []⟩ = [.err .recordTooLarge]) ∧
    (b.length + t.bytes.length < m →
      MemReader.readN (csvDecode p) 1 ⟨b ++ t.bytes ++ x, []⟩ = [.ok (some ⟨0, b⟩)]) := by
  rw [C11_line_limit_exact p m hm hc hdq hd hq b hne hb t x hx hbom]
  have : lengthExcess p.quotedNewLines t ≤ t.bytes.length := by
    unfold lengthExcess; cases p.quotedNewLines <;> cases t <;> decide
  constructor
  · intro h; rw [if_pos (by omega)]
  · intro h; rw [if_neg (by omega)]

-- Non-vacuity: the row `"a\n",b`, with and without quoting.
example : ∃ fs : List Field, ([34, 97, 10, 34, 44, 98] : Bytes) = rowBytes 44 34 fs ∧
    ∀ f ∈ fs, f.Ok 44 34 ∧ f.NoBreak :=
  ⟨[⟨[97, 10], true⟩, ⟨[98], false⟩], by decide, by simp [Field.Ok, Field.NoBreak, Plain]⟩

/-- **C11 is violated**: with `max_line_length = 3` the line `abc` is rejected, for all terminators and both
ways of reading; and `ab` with CRLF as well. -/
theorem C11_violated :
    (∀ t : Term, ∀ qn : Bool, MemReader.readN (csvDecode { maxLine := some 3, quotedNewLines := qn }) 1
      ⟨[97, 98, 99] ++ t.bytes, []⟩ = [.err .recordTooLarge]) ∧
    (∀ qn : Bool, MemReader.readN (csvDecode { maxLine := some 3, quotedNewLines := qn }) 1
      ⟨[97, 98, 13, 10], []⟩ = [.err .recordTooLarge]) := by
  constructor
  · intro t qn; cases t <;> cases qn <;> decide
  · intro qn; cases qn <;> decide

/-! ## C12 -/

/-- **C12.** With a limit of `m` characters each field is cut to its first `m` characters, the flag tells
exactly whether something was cut off, and number, boundaries and final outcome are those without the
limit. -/
theorem C12_field_limit (p : TokParams) (m : Nat) (row : Bytes) :
    tokenize { p with maxField := some m } row =
      ((tokenize { p with maxField := none } row).1.map
          (fun v => (v.1.take m, decide (m < v.1.length))),
        (tokenize { p with maxField := none } row).2) ∧
    ∀ v ∈ (tokenize { p with maxField := none } row).1, v.2 = false :=
  ⟨tokenize_cut p m row, tokenize_nomax_flag p row⟩

-- `abc,de,"f"` with limit 2.
example : tokenize { maxField := some 2 } [97, 98, 99, 44, 100, 101, 44, 34, 102, 34] =
    ([([97, 98], true), ([100, 101], false), ([102], false)], .ok ()) := by decide

end Mlio
