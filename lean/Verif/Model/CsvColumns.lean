import Verif.Model.CsvReader
import Verif.Model.SchemaReader

/-!
# The columns that decoding uses, from the members that inferring the schema has set
-/

namespace Mlio

/-- The columns that `make_tensors` (`src/mlio/csv_reader.cc` 472-502) and `make_column_iterators` (504-527) go through together: the
parser is the one that `init_parsers_and_make_schema` (365) has made, for the type it had then (an ignored column has none: 357), the
zero that of a new array of the type (495).  `parse` and `zero` are what `make_parser` and `make_cpu_array` make for a type. -/
def csvColumns {V : Type} (parse : DataType → Bytes → Option V) (zero : DataType → V) (s : CsvState) : List (CsvCol V) :=
  (s.types.zip (s.ignores.zip s.parsers)).map fun c =>
    { ignore := c.2.1, parse := (match c.2.2 with | some t => parse t | none => fun _ => none), zero := zero c.1 }

/-- The names that the CSV reader has after the first `n` data stores have been opened, `csv_reader.cc` 100-158. -/
def openedNames (o : CsvOpts) (rm : Machine Record) (readers : List (Res rm.σ)) (n : Nat) : List Bytes :=
  (openAll o rm (CsvState.fresh o) (readers.take n)).2.names

/-- `Csv_reader::infer_schema`, `csv_reader.cc` 171-186, as the parallel data reader calls it, with the bits of the first instance: looking for
that has opened data stores and so set the names, if there were none (`names`, see `openedNames`). -/
def csvInfer (F64 : FloatLib) (o : CsvOpts) (batch : Nat) (names : List Bytes) : Infer Inst Schema CsvState := fun s i =>
  inferSchema F64 o batch (if s.names.isEmpty then { s with names := names } else s) (i.map fun i => i.bits.getD [])

end Mlio
