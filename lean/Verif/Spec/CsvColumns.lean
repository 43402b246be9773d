import Verif.Spec.CsvReader
import Verif.Model.CsvColumns

/-!
# The names, types and columns of a dataset of CSV tables
-/

namespace Mlio.Spec

/-- The names of the columns that are known from the options, or else from the header row of the first table. -/
def knownNames (o : CsvOpts) (tables : List Sheet) : List Bytes :=
  if o.columnNames ≠ [] then o.columnNames
  else
    match o.headerRow, tables with
    | some h, t :: _ => ((t.values[h]?).getD []).map fun v => o.namePrefix ++ (cutField o.tok.maxField v).1
    | _, _ => []

/-- The names of the columns, if the first row is `row` (`none`: there are no rows): if none are known, they are numbered. -/
def namesFor (o : CsvOpts) (known : List Bytes) (row : Option (List Bytes)) : List Bytes :=
  if known ≠ [] then known
  else (List.range (row.getD []).length).map fun i => o.namePrefix ++ decimal (i + 1)

/-- The types of the columns, if the first row is `row`: those given for names or indices, else the default, else those of
the values in the first row; `string` without rows. -/
def typesFor (F64 : FloatLib) (o : CsvOpts) (names : List Bytes) (row : Option (List Bytes)) : List DataType :=
  overriddenTypes o names (match row with
    | some vs => vs.map fun v => o.defaultType.getD (inferDataType F64 (cutField o.tok.maxField v).1)
    | none => names.map fun _ => o.defaultType.getD .string)

/-- A column per name: those that are not selected are ignored, the others are parsed by their types. -/
def columnsFor {V : Type} (parse : DataType → Bytes → Option V) (zero : DataType → V) (o : CsvOpts) (names : List Bytes)
    (types : List DataType) : List (CsvCol V) :=
  (names.zip types).zipIdx.map fun c =>
    if Selected o c.2 c.1.1 then { ignore := false, parse := parse c.1.2, zero := zero c.1.2 }
    else { ignore := true, parse := fun _ => none, zero := zero c.1.2 }

end Mlio.Spec
