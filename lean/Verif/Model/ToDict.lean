import Verif.Model.Insights
import Verif.Model.CsvSchema
import Verif.Model.PyError

/-!
# `ColumnAnalysis.to_dict`

`src/mlio-py/mlio/contrib/insights/module.cc` 140-164, `column_statistics.h` 44-60.

`std::nth_element` and the estimate of the number of distinct texts are parameters.  Floating point numbers are rational
ones as in `Model/Insights.lean`, so that zero has no sign.
-/

namespace Mlio

/-- A value of the dictionary; a text is given by its UTF-8 bytes, NaN is `none`. -/
inductive DictVal where
  | text (b : Bytes)
  | int (n : Nat)
  | real (q : Option Rat)
  | flag (b : Bool)
  | counts (kvs : List (Bytes × Nat))
  deriving DecidableEq

/-- A quotient rounded to the nearest number, to the even one of two, as `printf` does it. -/
def roundEven (a d : Nat) : Nat :=
  if 2 * (a % d) < d then a / d
  else if d < 2 * (a % d) then a / d + 1
  else if a / d % 2 = 0 then a / d
  else a / d + 1

/-- `k` decimal digits. -/
def lastDigits : (k : Nat) → Nat → Bytes
  | 0, _ => []
  | k + 1, n => lastDigits k (n / 10) ++ [UInt8.ofNat (48 + n % 10)]

/-- `std::to_string(double)`, that is `%f`.  (NaN may have a sign.) -/
def fixed6 : Option Rat → Bytes
  | none => [110, 97, 110]
  | some q =>
    let n := roundEven (q.num.natAbs * 10 ^ 6) q.den
    (if q < 0 then [45] else []) ++ decimal (n / 10 ^ 6) ++ [46] ++ lastDigits 6 (n % 10 ^ 6)

/-- The statistics that are floating point numbers, `module.cc` 92-97. -/
def exportedReals (s : ColStats) : List (String × Option Rat) :=
  [("numeric_finite_mean", s.mean), ("numeric_finite_min", s.core.finMin), ("numeric_finite_max", s.core.finMax),
    ("string_avg_length", s.avgLen)]

/-- `estimate_median_approx`, `column_statistics.h` 48-60.  The sample is reordered. -/
def medianApprox (nth : List Rat → Nat → List Rat) (s : ColStats) : Option Rat × ColStats :=
  if s.core.sample.isEmpty then (none, s)
  else
    let n := s.core.sample.length / 2
    let l := nth s.core.sample n
    (l[n]?, { s with core := { s.core with sample := l } })

/-- `to_dict`, `module.cc` 140-164; `none` if a text cannot be made a Python string, which raises `UnicodeDecodeError`. -/
def toDict (nth : List Rat → Nat → List Rat) (est : Hll → Nat) (s : ColStats) : Option (List (String × DictVal)) × ColStats :=
  if (pyStr s.core.exampleValue).isSome && s.core.captured.all (fun kv => (pyStr kv.1).isSome) then
    let m := medianApprox nth s
    (some ((exported s).map (fun kv => (kv.1, DictVal.text (decimal kv.2))) ++
        (exportedReals s).map (fun kv => (kv.1, DictVal.text (fixed6 kv.2))) ++
        [("example_value", .text s.core.exampleValue), ("string_cardinality", .int (est s.core.card)),
          ("string_vocab_cardinality", .int (est s.core.vocab)), ("string_captured_unique_values", .counts s.core.captured),
          ("string_captured_unique_values_overflowed", .flag s.core.overflowed), ("numeric_finite_median_approx", .real m.1)]),
      m.2)
  else (none, s)

/-- The statistics after some calls of `to_dict`. -/
def afterDicts (nth : List Rat → Nat → List Rat) (est : Hll → Nat) : Nat → ColStats → ColStats
  | 0, s => s
  | k + 1, s => afterDicts nth est k (toDict nth est s).2

/-- `d[name]`. -/
def dictGet (d : List (String × DictVal)) (name : String) : Option DictVal := (d.find? (fun kv => kv.1 = name)).map (·.2)

end Mlio
