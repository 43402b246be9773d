import Verif.Model.CsvReader
import Verif.Model.Gil
import Verif.Model.PyError
import Verif.Model.Stores

/-!
# What the CSV reader logs

The messages of `Decoder::decode` (`src/mlio/csv_reader.cc` 626-755) and `Csv_reader::decode` (416-470), in the order in which they are
logged.  `Verif/Model/CsvDecode.lean` has the same loops without them; here only the messages are computed.
-/

namespace Mlio

/-- What a message about a row says: the column and the value (656-662 and 701-707), or the numbers of columns (737-743). -/
inductive RowFault where
  | tooLong (column : Nat) (value : Bytes)
  | unparsable (column : Nat) (value : Bytes)
  | columns (actual expected : Nat)
  deriving DecidableEq, Repr

/-- A message: about a row of a data store, or about an example (450-461). -/
inductive CsvMsg where
  | row (store index : Nat) (fault : RowFault)
  | skipped (example_ : Nat)
  | padded (example_ bad : Nat)
  deriving DecidableEq, Repr

/-- After the loop, 722-747: as `endRow`. -/
def endWarn {V : Type} (cfg : RowCfg) (ncols fuel : Nat) (t : Tok) (rest : List (CsvCol V)) (idx : Nat) : List RowFault :=
  if rest.isEmpty && t.eof then []
  else if cfg.warnBad then
    match countRest cfg.tok fuel t with
    | (.ok n, _) => [.columns (if rest.isEmpty then idx + n + 1 else idx + n) ncols]
    | _ => []
  else []

/-- The loop of `Decoder::decode`, 635-720: as `decodeLoop`.  `ncols` is `column_names_.size()` (729). -/
def warnLoop {V : Type} (cfg : RowCfg) (ncols : Nat) : (fuel : Nat) → Tok → (cols : List (CsvCol V)) → (idx : Nat) → List RowFault
  | 0, _, _, _ => []
  | fuel + 1, t, cols, idx =>
    match t.next cfg.tok with
    | (.err _, _) => []
    | (.ub _, _) => []
    | (.ok false, t') => endWarn cfg ncols (fuel + 1) t' cols idx
    | (.ok true, t') =>
      match cols with
      | [] => endWarn (V := V) cfg ncols (fuel + 1) t' [] idx
      | c :: cs =>
        if c.ignore then warnLoop cfg ncols fuel t' cs (idx + 1)
        else if t'.truncated && cfg.limit == .treatAsBad then
          -- 666-669
          if cfg.warnBad then [.tooLong idx t'.value] else []
        else
          -- 662-664
          (if t'.truncated && cfg.limit == .truncateWarn then [.tooLong idx t'.value] else []) ++
          match c.parse t'.value with
          | some _ => warnLoop cfg ncols fuel t' cs (idx + 1)
          -- 710-712
          | none => if cfg.warnBad then [.unparsable idx t'.value] else []

/-- The messages of `Decoder::decode`, 626-755. -/
def rowWarnings {V : Type} (cfg : RowCfg) (cols : List (CsvCol V)) (t : Tok) (row : Bytes) : List RowFault :=
  warnLoop cfg cols.length (row.length + 2) (t.reset row) cols 0

/-- The messages of `decode_ser`, 529-558: as `decodeSer`. -/
def serWarnings {V : Type} (cfg : RowCfg) (h : BadHandling) (cols : List (CsvCol V)) : List Inst → Tok → List CsvMsg
  | [], _ => []
  | i :: is, t =>
    let r := decodeRow cfg cols t (i.bits.getD [])
    (rowWarnings cfg cols t (i.bits.getD [])).map (.row i.store i.index) ++
      match r.out with
      | .ok true => serWarnings cfg h cols is r.tok
      | .ok false => if h = .pad ∨ h = .padWarn then serWarnings cfg h cols is r.tok else []
      | _ => []

/-- The messages of the worker of `decode_prl`, 578-607, on a sub-range: as `taskRun`. -/
def taskWarnings {V : Type} (cfg : RowCfg) (cols : List (CsvCol V)) : List Inst → Tok → List CsvMsg
  | [], _ => []
  | i :: is, t =>
    let r := decodeRow cfg cols t (i.bits.getD [])
    (rowWarnings cfg cols t (i.bits.getD [])).map (.row i.store i.index) ++
      match r.out with
      | .ok true => taskWarnings cfg cols is r.tok
      | _ => []

/-- The message of `Csv_reader::decode` about the example, 448-463: `read` is what decoding the rows has returned. -/
def exampleWarning (h : BadHandling) (example_ instances : Nat) (read : Option Nat) : List CsvMsg :=
  match read with
  | none => if h = .skipWarn then [.skipped example_] else []
  | some n => if instances ≠ n then if h = .padWarn then [.padded example_ (instances - n)] else [] else []

/-- The messages of `Csv_reader::decode`, 416-470, one after the other; `dflt` and the size are those of `DecodeBatch`.  For a parallel run
(560-616) that does not throw: those of the tasks in any interleaving. -/
def CsvLogs {V : Type} (tok : TokParams) (limit : FieldLimit) (warnBad : Bool) (h : BadHandling) (cols : List (CsvCol V)) (dflt : V)
    (q : Batch Inst) (msgs : List CsvMsg) : Prop :=
  if runSerial h cols.length q.instances.length then
    msgs = serWarnings (RowCfg.of tok limit warnBad h) h cols q.instances (Tok.init []) ++
      match decodeSer (RowCfg.of tok limit warnBad h) h cols (q.instances.map fun i => i.bits.getD []) (Tok.init []) 0
          (makeTensors cols dflt q.size) with
      | .ok r => exampleWarning h q.index q.instances.length r.1
      | _ => []
  else
    ∃ (blocks : List (List Inst)) (ms : List CsvMsg), blocks.flatten = q.instances ∧
      Interleaved (blocks.map fun b => taskWarnings (RowCfg.of tok limit warnBad h) cols b (Tok.init [])) ms ∧
      (∀ b ∈ blocks, ∀ e, (taskRun (RowCfg.of tok limit warnBad h) h cols (b.map fun i => (0, i.bits.getD [])) (Tok.init [])).2 ≠ .threw e) ∧
      msgs = ms ++ exampleWarning h q.index q.instances.length
        (if blocks.any (fun b => (taskRun (RowCfg.of tok limit warnBad h) h cols (b.map fun i => (0, i.bits.getD [])) (Tok.init [])).2 == .skipped)
          then none else some q.instances.length)

/-! ## The handler -/

/-- `warn_bad_instances_`, which the constructor sets, `src/mlio/data_reader_base.cc` 46-52. -/
def warnFlag (asked : Bool) (atConstruction : LogCfg) : Bool := asked && atConstruction.enabled .warning

/-- What reaches the handler of the messages of one call, all of them warnings, `src/mlio/logger.h` 37-50. -/
def LogCfg.delivers {μ : Type} (c : LogCfg) (msgs : List μ) : List μ := if c.calls .warning then msgs else []

/-- The text of a message about a value that cannot be parsed, 701-707: the name of the data store, the column's name and its type are texts;
the value is cut after 64 bytes (`{4:.64}`, fmt 6.0.0). -/
def unparsableText (store : Bytes) (index : Nat) (name typ value : Bytes) : Bytes :=
  "The column '".toUTF8.data.toList ++ name ++ "' of the row #".toUTF8.data.toList ++ decimal index ++ " in the data store '".toUTF8.data.toList ++
    store ++ "' cannot be parsed as ".toUTF8.data.toList ++ typ ++ ". Its string value is '".toUTF8.data.toList ++ value.take 64 ++
    "'.".toUTF8.data.toList

/-- What `Py_log_message_handler::operator()` (`src/mlio-py/mlio/core/logging.cc` 48-53) hands to Python: the conversion of the text to `str` throws if it
is not UTF-8, which `handle_message` (`logger.cc` 37-46) swallows. -/
def pyLogged (texts : List Bytes) : List String := texts.filterMap pyStr

end Mlio
