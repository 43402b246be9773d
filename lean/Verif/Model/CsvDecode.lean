import Verif.Model.Tokenizer

/-!
# Decoding CSV rows: `src/mlio/csv_reader.cc` 416-755

The value type `V` of the tensors and the parsers of the columns are parameters: a parser is a function from the text
of a field to a value or to nothing (`Parse_result::failed` and `overflowed` are treated alike by the caller).
All parsers of `src/mlio/parser.cc` write to the tensor only if they return `ok`
(`Verif/Model/Number.lean` models them).
-/

namespace Mlio

/-- `Max_field_length_handling`, `include/mlio/csv_reader.h` 38-42. -/
inductive FieldLimit where
  | treatAsBad | truncate | truncateWarn
  deriving DecidableEq, Repr

/-- `Bad_example_handling`, `include/mlio/data_reader.h` 65-77. -/
inductive BadHandling where
  | error | skip | skipWarn | pad | padWarn
  deriving DecidableEq, Repr

/-- A column: `column_ignores_`, `column_parsers_`, and the value of a new array of its type (`cpu_array.cc` 24-29). -/
structure CsvCol (V : Type) where
  ignore : Bool
  parse : Bytes → Option V
  zero : V

/-- What `Decoder::decode` consults: the tokenizer's parameters, `max_field_length_handling` and the two flags of
`Decoder_state` (`csv_reader.cc` 54-61, 618-624). -/
structure RowCfg where
  tok : TokParams := {}
  limit : FieldLimit := .treatAsBad
  warnBad : Bool := false
  errorBad : Bool := false
  deriving DecidableEq, Repr

/-- What happened in one call of `Decoder::decode`: the writes to the row's position of the tensors (tensor number and
value), the outcome, the number of columns in the message (if one was made), and the tokenizer afterwards. -/
structure RowRun (V : Type) where
  writes : List (Nat × V) := []
  out : Res Bool
  reported : Option Nat := none
  tok : Tok

/-- `while (tokenizer_->next()) num_actual_cols++`, `csv_reader.cc` 731-733. -/
def countRest (p : TokParams) : (fuel : Nat) → Tok → Res Nat × Tok
  | 0, t => (.err .diverges, t)
  | fuel + 1, t =>
    match t.next p with
    | (.ok true, t') =>
      match countRest p fuel t' with
      | (.ok n, t'') => (.ok (n + 1), t'')
      | (.err e, t'') => (.err e, t'')
      | (.ub w, t'') => (.ub w, t'')
    | (.ok false, t') => (.ok 0, t')
    | (.err e, t') => (.err e, t')
    | (.ub w, t') => (.ub w, t')

/-- The end of a bad row: throw or return false, `csv_reader.cc` 671-676, 714-719, 749-754. -/
def badRow (cfg : RowCfg) : Res Bool := if cfg.errorBad then .err .invalidInstance else .ok false

/-- After the loop, `csv_reader.cc` 722-754: `rest` are the columns from `col_pos` on, `idx` the number of columns before
it.  (The code dereferences `col_pos` also when it is the end; only its counter is used then, whose value is the
number of columns.) -/
def endRow {V : Type} (cfg : RowCfg) (fuel : Nat) (t : Tok) (rest : List (CsvCol V)) (idx : Nat) : RowRun V :=
  if rest.isEmpty && t.eof then { out := .ok true, tok := t }
  else if cfg.warnBad || cfg.errorBad then
    match countRest cfg.tok fuel t with
    | (.ok n, t') =>
      { out := badRow cfg, reported := some (if rest.isEmpty then idx + n + 1 else idx + n), tok := t' }
    | (.err e, t') => { out := .err e, tok := t' }
    | (.ub w, t') => { out := .ub w, tok := t' }
  else { out := .ok false, tok := t }

/-- The loop of `Decoder::decode`, `csv_reader.cc` 635-720: `cols` are the columns from `col_pos` on, `idx` their first
index, `tsr` the tensor `tsr_pos` points to.  (`tsr` stays below the number of tensors, which is the
number of columns that are not ignored.)  Warnings are left out. -/
def decodeLoop {V : Type} (cfg : RowCfg) :
    (fuel : Nat) → Tok → (cols : List (CsvCol V)) → (idx tsr : Nat) → RowRun V
  | 0, t, _, _, _ => { out := .err .diverges, tok := t }
  | fuel + 1, t, cols, idx, tsr =>
    match t.next cfg.tok with
    | (.err e, t') => { out := .err e, tok := t' }
    | (.ub w, t') => { out := .ub w, tok := t' }
    | (.ok false, t') => endRow cfg (fuel + 1) t' cols idx
    | (.ok true, t') =>
      match cols with
      | [] => endRow cfg (fuel + 1) t' [] idx
      | c :: cs =>
        if c.ignore then decodeLoop cfg fuel t' cs (idx + 1) tsr
        else if t'.truncated && cfg.limit == .treatAsBad then { out := badRow cfg, tok := t' }
        else
          match c.parse t'.value with
          | some v =>
            let r := decodeLoop cfg fuel t' cs (idx + 1) (tsr + 1)
            { r with writes := (tsr, v) :: r.writes }
          | none => { out := badRow cfg, tok := t' }

/-- `Decoder::decode`, `csv_reader.cc` 626-755.  `t` is the tokenizer as the previous row has left it. -/
def decodeRow {V : Type} (cfg : RowCfg) (cols : List (CsvCol V)) (t : Tok) (row : Bytes) : RowRun V :=
  decodeLoop cfg (row.length + 2) (t.reset row) cols 0 0

/-- The dense tensors of an example: `cols` tensors with `rows` elements each. -/
structure Tensors (V : Type) where
  cols : Nat
  rows : Nat
  cell : Nat → Nat → V

/-- `make_tensors`, `csv_reader.cc` 472-502: a tensor for every column that is not ignored. -/
def makeTensors {V : Type} (cols : List (CsvCol V)) (dflt : V) (size : Nat) : Tensors V where
  cols := (cols.filter (fun c => !c.ignore)).length
  rows := size
  cell := fun k _ => (((cols.filter (fun c => !c.ignore))[k]?).map CsvCol.zero).getD dflt

/-- Store a value, `parser.cc` 30-34, as it is called from `csv_reader.cc` 687-689. -/
def Tensors.write {V : Type} (ts : Tensors V) (row : Nat) (w : Nat × V) : Res (Tensors V) :=
  if w.1 < ts.cols ∧ row < ts.rows then
    .ok { ts with cell := fun k r => if k = w.1 ∧ r = row then w.2 else ts.cell k r }
  else .ub "write outside of a tensor"

def Tensors.writeAll {V : Type} : Tensors V → List (Nat × Nat × V) → Res (Tensors V)
  | ts, [] => .ok ts
  | ts, (row, w) :: ws =>
    match ts.write row w with
    | .ok ts' => ts'.writeAll ws
    | .err e => .err e
    | .ub u => .ub u

/-- `decode_ser`, `csv_reader.cc` 529-558, from row position `idx` on. -/
def decodeSer {V : Type} (cfg : RowCfg) (h : BadHandling) (cols : List (CsvCol V)) :
    (rows : List Bytes) → Tok → (idx : Nat) → Tensors V → Res (Option Nat × Tensors V)
  | [], _, idx, ts => .ok (some idx, ts)
  | row :: rows, t, idx, ts =>
    let r := decodeRow cfg cols t row
    match ts.writeAll (r.writes.map fun w => (idx, w)) with
    | .err e => .err e
    | .ub w => .ub w
    | .ok ts' =>
      match r.out with
      | .err e => .err e
      | .ub w => .ub w
      | .ok true => decodeSer cfg h cols rows r.tok (idx + 1) ts'
      | .ok false =>
        if h = .skip ∨ h = .skipWarn then .ok (none, ts')
        else if h = .pad ∨ h = .padWarn then decodeSer cfg h cols rows r.tok idx ts'
        else .err .invalidArgument

/-- How a parallel task ends: all rows decoded, a bad row in skip mode (`skip_example = true; return`), an
exception, or undefined behaviour. -/
inductive TaskEnd where
  | done | skipped | threw (e : Err) | ub (w : String)
  deriving DecidableEq, Repr

/-- The worker of `decode_prl`, `csv_reader.cc` 578-607, on a sub-range: its writes in order, and how it ends. -/
def taskRun {V : Type} (cfg : RowCfg) (h : BadHandling) (cols : List (CsvCol V)) :
    List (Nat × Bytes) → Tok → List (Nat × Nat × V) × TaskEnd
  | [], _ => ([], .done)
  | (idx, row) :: rows, t =>
    let r := decodeRow cfg cols t row
    let ws := r.writes.map fun w => (idx, w)
    match r.out with
    | .err e => (ws, .threw e)
    | .ub w => (ws, .ub w)
    | .ok true =>
      let (ws', e) := taskRun cfg h cols rows r.tok
      (ws ++ ws', e)
    | .ok false => if h = .skip ∨ h = .skipWarn then (ws, .skipped) else (ws, .threw .invalidArgument)

/-- The steps of several threads, each in its order, in some common order. -/
inductive Interleaved {α : Type} : List (List α) → List α → Prop where
  | nil (ls : List (List α)) (h : ∀ l ∈ ls, l = []) : Interleaved ls []
  | step (pre post : List (List α)) (x : α) (l zs : List α) (h : Interleaved (pre ++ l :: post) zs) :
      Interleaved (pre ++ (x :: l) :: post) (x :: zs)

/-- The possible outcomes of `decode_prl`, `csv_reader.cc` 560-616.  `tbb::parallel_for` cuts the range into
sub-ranges `blocks` and runs the worker on each, in any interleaving; an exception of a task is passed on to
the caller.  Of the tasks that throw any may be the one whose exception is passed on. -/
inductive DecodePrl {V : Type} (cfg : RowCfg) (h : BadHandling) (cols : List (CsvCol V)) (t : Tok)
    (rows : List Bytes) (ts : Tensors V) : Res (Option Nat × Tensors V) → Prop where
  | finished (blocks : List (List (Nat × Bytes))) (ws : List (Nat × Nat × V)) (ts' : Tensors V)
      (hb : blocks.flatten = rows.zipIdx.map (fun x => (x.2, x.1)))
      (hw : Interleaved (blocks.map fun b => (taskRun cfg h cols b t).1) ws)
      (he : ∀ b ∈ blocks, (taskRun cfg h cols b t).2 = .done ∨ (taskRun cfg h cols b t).2 = .skipped)
      (hts : ts.writeAll ws = .ok ts') :
      DecodePrl cfg h cols t rows ts
        (.ok (if blocks.any (fun b => (taskRun cfg h cols b t).2 == .skipped) then none else some rows.length, ts'))
  | threw (blocks : List (List (Nat × Bytes))) (b : List (Nat × Bytes)) (e : Err)
      (hb : blocks.flatten = rows.zipIdx.map (fun x => (x.2, x.1)))
      (hm : b ∈ blocks) (he : (taskRun cfg h cols b t).2 = .threw e) :
      DecodePrl cfg h cols t rows ts (.err e)
  | ub (blocks : List (List (Nat × Bytes))) (ws : List (Nat × Nat × V)) (w : String)
      (hb : blocks.flatten = rows.zipIdx.map (fun x => (x.2, x.1)))
      (hw : Interleaved (blocks.map fun b => (taskRun cfg h cols b t).1) ws)
      (hu : ts.writeAll ws = .ub w ∨ ∃ b ∈ blocks, (taskRun cfg h cols b t).2 = .ub w) :
      DecodePrl cfg h cols t rows ts (.ub w)

/-- `should_run_serial`, `csv_reader.cc` 424-436. -/
def runSerial (h : BadHandling) (ncols nrows : Nat) : Bool :=
  h == .pad || h == .padWarn || ncols * nrows < 10000000

/-- An example: its tensors and its padding. -/
structure CsvExample (V : Type) where
  tensors : Tensors V
  padding : Nat

/-- The end of `decode`, `csv_reader.cc` 446-469. -/
def makeExample {V : Type} (size : Nat) : Res (Option Nat × Tensors V) → Res (Option (CsvExample V))
  | .ok (none, _) => .ok none
  | .ok (some n, ts) => .ok (some ⟨ts, size - n⟩)
  | .err e => .err e
  | .ub w => .ub w

/-- `Decoder_state::Decoder_state`, `csv_reader.cc` 618-624. -/
def RowCfg.of (tok : TokParams) (limit : FieldLimit) (warnBad : Bool) (h : BadHandling) : RowCfg :=
  ⟨tok, limit, warnBad, h == .error⟩

/-- `Csv_reader::decode`, `csv_reader.cc` 416-470: the possible outcomes for a batch of size `size` with the given
rows. -/
def DecodeBatch {V : Type} (tok : TokParams) (limit : FieldLimit) (warnBad : Bool) (h : BadHandling)
    (cols : List (CsvCol V)) (dflt : V) (size : Nat) (rows : List Bytes) (o : Res (Option (CsvExample V))) : Prop :=
  if runSerial h cols.length rows.length then
    o = makeExample size
      (decodeSer (RowCfg.of tok limit warnBad h) h cols rows (Tok.init []) 0 (makeTensors cols dflt size))
  else
    ∃ r, DecodePrl (RowCfg.of tok limit warnBad h) h cols (Tok.init []) rows (makeTensors cols dflt size) r ∧
      o = makeExample size r

end Mlio
