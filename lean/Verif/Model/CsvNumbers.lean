import Verif.Model.Decimal
import Verif.Model.CsvDecode

/-! # Columns of a CSV dataset with the parsers of the library -/

namespace Mlio

/-- How `Decoder::decode`, `csv_reader.cc` 687-694, uses a parser of `make_parser`: the value counts only if the result is `ok`. -/
def csvParse (o : ParserOptions) (dt : DataType) (s : Bytes) : Option (Value Flt Flt) :=
  match parserOf (ieee binary32) (ieee binary64) o dt s with
  | .ok v => some v
  | _ => none

/-- A column of the type that is not ignored; new arrays are zero, `cpu_array.cc` 24-29. -/
def csvColumn (o : ParserOptions) (dt : DataType) (zero : Value Flt Flt) : CsvCol (Value Flt Flt) := ⟨false, csvParse o dt, zero⟩

end Mlio
