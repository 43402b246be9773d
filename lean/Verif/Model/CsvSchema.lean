import Verif.Model.InstanceReaders
import Verif.Model.RecordIO
import Verif.Model.Schema
import Verif.Model.Tokenizer

/-!
# Header and schema of a CSV dataset: `src/mlio/csv_reader.cc` 82-414

The record readers are a `Machine Record`, see `Verif/Model/CoreReader.lean`.  Maps and sets are association lists and
lists; maps of parameters have at most one entry per key.
-/

namespace Mlio

/-- `fmt::to_string` of an unsigned number: the decimal digits (`fuel` bounds their number). -/
def decimalFuel : Nat → Nat → Bytes
  | 0, _ => []
  | fuel + 1, n => if n < 10 then [UInt8.ofNat (48 + n)] else decimalFuel fuel (n / 10) ++ [UInt8.ofNat (48 + n % 10)]

/-- `fmt::to_string`. -/
def decimal (n : Nat) : Bytes := decimalFuel (n + 1) n

/-- The parts of `Csv_params` (`include/mlio/csv_reader.h` 48-117) that matter for header and schema. -/
structure CsvOpts where
  tok : TokParams := {}
  headerRow : Option Nat := some 0
  singleHeader : Bool := false
  dedupe : Bool := true
  columnNames : List Bytes := []
  namePrefix : Bytes := []
  useColumns : List Bytes := []
  useIndices : List Nat := []
  defaultType : Option DataType := none
  types : List (Bytes × DataType) := []
  typesByIndex : List (Nat × DataType) := []
  deriving Repr

/-- Members of `Csv_reader`, `csv_reader.h` 186-191; a parser is represented by its data type. -/
structure CsvState where
  names : List Bytes
  types : List DataType := []
  ignores : List Bool := []
  parsers : List (Option DataType) := []
  readHeader : Bool := true
  deriving DecidableEq, Repr

/-- `Csv_reader::Csv_reader`, `csv_reader.cc` 82-86. -/
def CsvState.fresh (o : CsvOpts) : CsvState := { names := o.columnNames }

/-- `Csv_reader::reset`, `csv_reader.cc` 93-98. -/
def CsvState.reset (s : CsvState) : CsvState := { s with readHeader := true }

/-! ## Header -/

/-- `skip_to_header_row`, `csv_reader.cc` 160-169. -/
def skipToHeader (rm : Machine Record) : Nat → rm.σ → Res Unit × rm.σ
  | 0, r => (.ok (), r)
  | n + 1, r =>
    match rm.read r with
    | (.ok (some _), r') => skipToHeader rm n r'
    | (.ok none, r') => (.ok (), r')
    | (.err e, r') => (.err e, r')
    | (.ub w, r') => (.ub w, r')

/-- `catch (const Corrupt_record_error &)`, also of its subclasses (`record_error.h` 42-85). -/
def schemaErr (e : Err) : Err :=
  if e = .corruptRecord ∨ e = .corruptHeader ∨ e = .corruptFooter then .schemaError else e

/-- The name of a column, `csv_reader.cc` 137-144. -/
def prefixed (o : CsvOpts) (v : Bytes) : Bytes := if o.namePrefix.isEmpty then v else o.namePrefix ++ v

/-- The rest of `read_names_from_header`, `csv_reader.cc` 135-157, for the header row `hdr`. -/
def namesFromRow (o : CsvOpts) (s : CsvState) (hdr : Bytes) : Res Unit × CsvState :=
  let s' := { s with names := s.names ++ (tokenize o.tok hdr).1.map (fun f => prefixed o f.1) }
  match (tokenize o.tok hdr).2 with
  | .ok () => (.ok (), if s'.names.isEmpty then { s' with names := [o.namePrefix] } else s')
  | .err e => (.err (schemaErr e), s')
  | .ub w => (.ub w, s')

/-- `read_names_from_header`, `csv_reader.cc` 125-158. -/
def readNames (o : CsvOpts) (rm : Machine Record) (h : Nat) (s : CsvState) (r : rm.σ) :
    Res Unit × rm.σ × CsvState :=
  match skipToHeader rm h r with
  | (.err e, r') => (.err e, r', s)
  | (.ub w, r') => (.ub w, r', s)
  | (.ok (), r') =>
    match rm.read r' with
    | (.ok none, r'') => (.ok (), r'', s)
    | (.ok (some hdr), r'') => ((namesFromRow o s hdr.payload).1, r'', (namesFromRow o s hdr.payload).2)
    | (.err e, r'') => (.err (schemaErr e), r'', s)
    | (.ub w, r'') => (.ub w, r'', s)

/-- Skip the header and discard it, `csv_reader.cc` 112-117. -/
def discardHeader (rm : Machine Record) (h : Nat) (r : rm.σ) : Res Unit × rm.σ :=
  match skipToHeader rm h r with
  | (.ok (), r') =>
    match rm.read r' with
    | (.ok _, r'') => (.ok (), r'')
    | (.err e, r'') => (.err e, r'')
    | (.ub w, r'') => (.ub w, r'')
  | x => x

/-- `make_record_reader`, `csv_reader.cc` 100-123; `r` is the new `Csv_record_reader` (opening the stream may
fail). -/
def makeRecordReader (o : CsvOpts) (rm : Machine Record) (s : CsvState) (r : Res rm.σ) : Res rm.σ × CsvState :=
  match r with
  | .err e => (.err e, s)
  | .ub w => (.ub w, s)
  | .ok r =>
    match o.headerRow with
    | none => (.ok r, s)
    | some h =>
      if s.names.isEmpty then
        match readNames o rm h s r with
        | (.ok (), r', s') => (.ok r', { s' with readHeader := false })
        | (.err e, _, s') => (.err e, s')
        | (.ub w, _, s') => (.ub w, s')
      else if s.readHeader || !o.singleHeader then
        match discardHeader rm h r with
        | (.ok (), r') => (.ok r', { s with readHeader := false })
        | (.err e, _) => (.err e, s)
        | (.ub w, _) => (.ub w, s)
      else (.ok r, { s with readHeader := false })

/-- The record readers that an epoch gets when it opens the given stores one after another, as the core instance
reader does (`core_instance_reader.cc` 196-235), and the state of the CSV reader afterwards. -/
def openAll (o : CsvOpts) (rm : Machine Record) : CsvState → List (Res rm.σ) → List (Res rm.σ) × CsvState
  | s, [] => ([], s)
  | s, r :: rs =>
    let (x, s') := makeRecordReader o rm s r
    let (xs, s'') := openAll o rm s' rs
    (x :: xs, s'')

/-- The state at the start of an epoch after earlier epochs in which the first `n` stores were opened, for each `n` in
the list, with a reset after each. -/
def afterEpochs (o : CsvOpts) (rm : Machine Record) (stores : List (Res rm.σ)) : CsvState → List Nat → CsvState
  | s, [] => s
  | s, n :: ns => afterEpochs o rm stores (openAll o rm s (stores.take n)).2.reset ns

/-! ## Schema -/

/-- `infer_column_types`, `csv_reader.cc` 188-226: column types are appended to those already there. -/
def inferColumnTypes (F64 : FloatLib) (o : CsvOpts) (s : CsvState) (inst : Option Bytes) : Res Unit × CsvState :=
  match inst with
  | none => (.ok (), { s with types := s.types ++ s.names.map (fun _ => o.defaultType.getD .string) })
  | some row =>
    let s' := { s with types := s.types ++
      (tokenize o.tok row).1.map (fun f => o.defaultType.getD (inferDataType F64 f.1)) }
    match (tokenize o.tok row).2 with
    | .ok () => (.ok (), s')
    | .err e => (.err (schemaErr e), s')
    | .ub w => (.ub w, s')

/-- `set_or_validate_column_names`, `csv_reader.cc` 228-254.  The message of the error reads `instance`, also when
there is none. -/
def setOrValidateNames (o : CsvOpts) (s : CsvState) (inst : Option Bytes) : Res Unit × CsvState :=
  if s.names.isEmpty then
    (.ok (), { s with names := (List.range s.types.length).map (fun i => prefixed o (decimal (i + 1))) })
  else if s.names.length ≠ s.types.length then
    match inst with
    | none => (.ub "empty optional dereferenced", s)
    | some _ => (.err .schemaError, s)
  else (.ok (), s)

/-- `erase` of a map. -/
def eraseKey {κ β : Type} [BEq κ] (m : List (κ × β)) (k : κ) : List (κ × β) := m.filter (fun p => p.1 != k)

/-- The loops of `apply_column_type_overrides`, `csv_reader.cc` 275-282 and 301-308: `ks` are the indices or the names
of the columns. -/
def overrideLoop {κ : Type} [BEq κ] :
    List κ → List DataType → List (κ × DataType) → List DataType × List (κ × DataType)
  | k :: ks, t :: ts, m =>
    match m.lookup k with
    | some d => let (ts', m') := overrideLoop ks ts (eraseKey m k); (d :: ts', m')
    | none => let (ts', m') := overrideLoop ks ts m; (t :: ts', m')
  | _, ts, m => (ts, m)

/-- `apply_column_type_overrides`, `csv_reader.cc` 256-323. -/
def applyOverrides (o : CsvOpts) (s : CsvState) : Res Unit × CsvState :=
  let (ts, left) := overrideLoop (List.range s.names.length) s.types o.typesByIndex
  if !left.isEmpty then (.err .invalidArgument, { s with types := ts })
  else
    let (ts', left') := overrideLoop s.names ts o.types
    if !left'.isEmpty then (.err .invalidArgument, { s with types := ts' })
    else (.ok (), { s with types := ts' })

/-- `should_skip`, `csv_reader.cc` 397-414. -/
def shouldSkip (o : CsvOpts) (i : Nat) (name : Bytes) : Bool :=
  (!o.useIndices.isEmpty && !o.useIndices.contains i) || (!o.useColumns.isEmpty && !o.useColumns.contains name)

/-- `pos->second = c` -/
def setCount (m : List (Bytes × Nat)) (k : Bytes) (c : Nat) : List (Bytes × Nat) :=
  m.map (fun p => if p.1 = k then (k, c) else p)

/-- The renaming loop, `csv_reader.cc` 370-375: the new name and the counts, `none` if the fuel does not suffice.
Counts do not wrap around (that needs `2 ^ 64` columns). -/
def dedupeName : (fuel : Nat) → List (Bytes × Nat) → Bytes → Option (Bytes × List (Bytes × Nat))
  | 0, _, _ => none
  | fuel + 1, m, name =>
    match m.lookup name with
    | none => some (name, (name, 1) :: m)
    | some c => dedupeName fuel (setCount m name (c + 1)) (name ++ 95 :: decimal c)

/-- The loop of `init_parsers_and_make_schema`, `csv_reader.cc` 350-379, from column `i` on: the attributes, and
what is appended to `column_ignores_` and `column_parsers_`. -/
def initLoop (o : CsvOpts) (batch : Nat) : (i : Nat) → List Bytes → List DataType → List (Bytes × Nat) →
    Res (List Attr) × List Bool × List (Option DataType)
  | i, n :: ns, t :: ts, m =>
    if shouldSkip o i n then
      let (r, ig, ps) := initLoop o batch (i + 1) ns ts m
      (r, true :: ig, none :: ps)
    else
      match (if o.dedupe then dedupeName (m.length + 1) m n else some (n, m)) with
      | none => (.err .diverges, [false], [some t])
      | some (n', m') =>
        match makeAttr n' t [batch, 1] [] false with
        | .err e => (.err e, [false], [some t])
        | .ub w => (.ub w, [false], [some t])
        | .ok a =>
          match initLoop o batch (i + 1) ns ts m' with
          | (.ok as, ig, ps) => (.ok (a :: as), false :: ig, some t :: ps)
          | (.err e, ig, ps) => (.err e, false :: ig, some t :: ps)
          | (.ub w, ig, ps) => (.ub w, false :: ig, some t :: ps)
  | _, _, _, _ => (.ok [], [], [])

/-- `init_parsers_and_make_schema`, `csv_reader.cc` 325-395.  The schema's constructor refuses attributes only for equal
names, which is turned into a `Schema_error`. -/
def makeCsvSchema (o : CsvOpts) (batch : Nat) (s : CsvState) : Res Schema × CsvState :=
  match initLoop o batch 0 s.names s.types [] with
  | (r, ig, ps) =>
    let s' := { s with ignores := s.ignores ++ ig, parsers := s.parsers ++ ps }
    match r with
    | .err e => (.err e, s')
    | .ub w => (.ub w, s')
    | .ok attrs =>
      match makeSchema attrs with
      | .ok sch => (.ok sch, s')
      | .err .invalidArgument =>
        (.err (if (attrs.map Attr.name).Nodup then .invalidArgument else .schemaError), s')
      | .err e => (.err e, s')
      | .ub w => (.ub w, s')

/-- `infer_schema`, `csv_reader.cc` 171-186: the schema (`none`: null pointer) and the members afterwards. -/
def inferSchema (F64 : FloatLib) (o : CsvOpts) (batch : Nat) (s : CsvState) (inst : Option Bytes) :
    Res (Option Schema) × CsvState :=
  if inst.isNone && s.names.isEmpty then (.ok none, s)
  else
    match inferColumnTypes F64 o s inst with
    | (.err e, s1) => (.err e, s1)
    | (.ub w, s1) => (.ub w, s1)
    | (.ok (), s1) =>
      match setOrValidateNames o s1 inst with
      | (.err e, s2) => (.err e, s2)
      | (.ub w, s2) => (.ub w, s2)
      | (.ok (), s2) =>
        match applyOverrides o s2 with
        | (.err e, s3) => (.err e, s3)
        | (.ub w, s3) => (.ub w, s3)
        | (.ok (), s3) =>
          match makeCsvSchema o batch s3 with
          | (.ok sch, s4) => (.ok (some sch), s4)
          | (.err e, s4) => (.err e, s4)
          | (.ub w, s4) => (.ub w, s4)

/-- `n` attempts with the same first instance (it stays peeked, `instance_reader_base.cc` 31-37;
`parallel_data_reader.cc` 284-291): the outcome of each.  After a schema has been returned there are no more. -/
def inferAttempts (F64 : FloatLib) (o : CsvOpts) (batch : Nat) (inst : Option Bytes) :
    Nat → CsvState → List (Res (Option Schema))
  | 0, _ => []
  | n + 1, s =>
    let (r, s') := inferSchema F64 o batch s inst
    match r with
    | .ok (some sch) => [.ok (some sch)]
    | .ub w => [.ub w]
    | r => r :: inferAttempts F64 o batch inst n s'

end Mlio
