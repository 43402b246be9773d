import Verif.Spec.TextLineReader
import Verif.Spec.CsvSchema
import Verif.Spec.CsvDecode
import Verif.Model.CsvReader

/-!
# What the CSV reader is meant to deliver
-/

namespace Mlio.Spec

variable {V : Type}

/-- A CSV file of a dataset: its lines, how it is encoded and the data store that holds it. -/
structure CsvFile (m : SrcClass) where
  table : Sheet
  enc : Encoding
  file : StoreFile m

/-- The settings: distinct delimiter and quote, and none of them, nor the comment character, is a line break. -/
structure Plainly (p : CsvParams) (o : CsvOpts) : Prop where
  tokDelimiter : o.tok.delimiter = p.delimiter
  tokQuote : o.tok.quote = p.quote
  comment : p.comment ≠ some 10 ∧ p.comment ≠ some 13
  distinct : p.delimiter ≠ p.quote
  delimiter : p.delimiter ≠ 10 ∧ p.delimiter ≠ 13
  quote : p.quote ≠ 10 ∧ p.quote ≠ 13

/-- The lines are written by the rules: a row has at least one field, is written by the quoting rule, with line breaks only
where they are allowed, and looks neither like a comment nor like a blank line that is skipped; the other lines are comments
or blank lines that are skipped.  A line ended by CR is not followed by an empty line ended by LF; every line but the comments
is shorter than the limit; and no line starts with a byte order mark. -/
structure Sheet.Good (p : CsvParams) (s : Sheet) : Prop where
  nonempty : ∀ fs ∈ s.rows, fs ≠ []
  fields : ∀ fs ∈ s.rows, ∀ f ∈ fs, f.Ok p.delimiter p.quote ∧ f.NoBreak
  breaks : p.quotedNewLines = true ∨ ∀ fs ∈ s.rows, ∀ f ∈ fs, Plain f.value
  row : ∀ fs ∈ s.rows, isRow p.comment p.skipBlank (rowBytes p.delimiter p.quote fs) = true
  other : ∀ b, .other b ∈ s.lines.map Prod.fst → Plain b ∧ isRow p.comment p.skipBlank b = false
  lastRow : ∀ fs, s.last = .row fs → rowBytes p.delimiter p.quote fs ≠ []
  lastOther : ∀ b, s.last = .other b → b = [] ∨ (Plain b ∧ isRow p.comment p.skipBlank b = false)
  unambiguous : Unambiguous (s.text p.delimiter p.quote).lines
  limit : ∀ m, p.maxLine = some m → ∀ l ∈ s.all, p.comment = none ∨ (l.bytes p.delimiter p.quote).head? ≠ p.comment →
    (l.bytes p.delimiter p.quote).length + 2 < m
  noMark : ∀ l ∈ s.all, ¬ utf8Bom <+: l.bytes p.delimiter p.quote

/-- When it cannot matter where a chunk of the file ends, although lines end with CR LF: see `C05_crlf_any_chunk_size_violated`. -/
def CrlfSafe (p : CsvParams) : Prop :=
  (p.quotedNewLines = true ∧ p.comment = none) ∨ (p.skipBlank = true ∧ p.maxLine = none)

/-- The file holds the lines. -/
structure CsvFile.Good {m : SrcClass} (p : CsvParams) (f : CsvFile m) : Prop where
  sheet : f.table.Good p
  stored : Stored (CrlfSafe p) f.enc (f.table.bytes p.delimiter p.quote) f.file

/-- The data rows of the files, in order: without the headers. -/
def datasetRows {m : SrcClass} (o : CsvOpts) (files : List (CsvFile m)) : List (List Bytes) :=
  files.zipIdx.flatMap fun f => dataRows o f.2 f.1.table.values

/-- Is the row good: as many fields as columns, and the used ones, cut to the limit, can be parsed? -/
def goodRow (cut : Option Nat) (limit : FieldLimit) (cols : List (CsvCol V)) (vs : List Bytes) : Bool :=
  decide (WellFormed limit cols (vs.map (cutField cut)))

/-- The example holds the good rows of the batch: the parsed value of each used column, in order; the padding is the
number of rows missing, and behind the last row the tensors are zero.  (Where a bad row is the last one of the batch, the
first position behind the good rows is not spoken of: `C31_padding_violated`.) -/
def HoldsRows (cut : Option Nat) (limit : FieldLimit) (cols : List (CsvCol V)) (q : Batch (List Bytes)) (ex : CsvExample V) :
    Prop :=
  ex.padding = q.size - (q.instances.filter (goodRow cut limit cols)).length ∧
  (∀ k (j : Nat) vs v, (q.instances.filter (goodRow cut limit cols))[j]? = some vs →
    (usedValues cols (vs.map (cutField cut)))[k]? = some v → ex.tensors.cell k j = v) ∧
  (∀ k r c, ((q.instances.filter (goodRow cut limit cols)).length < r ∨
      ((q.instances.filter (goodRow cut limit cols)).length = r ∧
        ∀ vs, q.instances.getLast? = some vs → goodRow cut limit cols vs = true)) →
    (cols.filter (fun c => !c.ignore))[k]? = some c → ex.tensors.cell k r = c.zero)

/-- The batches that are delivered: up to the first one with a bad row if that is an error, those without bad rows if
examples with bad rows are skipped, all if bad rows are padded. -/
def deliverable {β : Type} (good : β → Bool) (h : BadHandling) (qs : List β) : List β :=
  match h with
  | .error => qs.takeWhile good
  | .skip | .skipWarn => qs.filter good
  | .pad | .padWarn => qs

/-- All rows of the batch are good. -/
def goodBatch (cut : Option Nat) (limit : FieldLimit) (cols : List (CsvCol V)) (q : Batch (List Bytes)) : Bool :=
  q.instances.all (goodRow cut limit cols)

end Mlio.Spec
