import Verif.Model.Hll
import Verif.Model.Number

/-!
# Column statistics

`src/mlio-py/mlio/contrib/insights/column_analyzer.cc`, `column_statistics.h`, `utils.cc`, `module.cc`.

Floating point numbers are replaced by rational ones, with `none` for NaN: rounding and overflow are not modelled.
Estimators count zeros in the portable way (see `Model/Hll.lean`).  `estimate_median_approx` is in `Model/ToDict.lean`.
-/

namespace Mlio

/-- What a cell is as a number, `column_analyzer.cc` 106-113: none (or NaN), an infinite or a finite one. -/
inductive NumCell where
  | bad
  | inf
  | fin (q : Rat)
  deriving DecidableEq

/-- What is a parameter here: `try_parse_float`, the test at line 123 whether a number is an integer but for 1e-5, and the
hash function (which is in `Model/Xxhash.lean`). -/
structure CellTools where
  parse : Bytes → NumCell
  isInt : Rat → Bool
  hash : Bytes → Nat

/-- `std::tolower` in the C locale. -/
def lower (c : UInt8) : UInt8 := if 65 ≤ c && c ≤ 90 then c + 32 else c

/-- The loop of `match_nan_values`, `utils.cc` 30-33. -/
def sameText : Bytes → Bytes → Bool
  | [], [] => true
  | a :: s, b :: t => (a == b || lower a == lower b) && sameText s t
  | _, _ => false

/-- `match_nan_values`, `utils.cc` 25-39. (Characters above 127 go to `std::tolower` as negative numbers, which is
undefined; here they are left as they are.) -/
def matchNan (nulls : List Bytes) (s : Bytes) : Bool := nulls.any (fun n => sameText n (trim s))

/-- `std::getline(iss, token, ' ')` until it fails, `column_analyzer.cc` 87-92: `cur` is the token being read. -/
def tokensFrom (cur : Bytes) : Bytes → List Bytes
  | [] => if cur.isEmpty then [] else [cur]
  | c :: cs => if c == 32 then cur :: tokensFrom [] cs else tokensFrom (cur ++ [c]) cs

/-- The words of a cell. -/
def tokens (cell : Bytes) : List Bytes := tokensFrom [] cell

/-- `is_whitespace_only`, `util/string.cc` 62-69. -/
def isBlank (s : Bytes) : Bool := s.all isSpace

/-- `add`, in the portable variant. -/
def Hll.put (s : Hll) (hash : Nat) : Hll := match s.add false hash with
  | .ok s' => s'
  | _ => s

/-- `++str_captured_unique_values[cell]`, a map from values to counts. -/
def countUp (cell : Bytes) : List (Bytes × Nat) → List (Bytes × Nat)
  | [] => [(cell, 1)]
  | (k, n) :: rest => if k = cell then (k, n + 1) :: rest else (k, n) :: countUp cell rest

/-- A `Column_analysis` but for the two averages, `column_statistics.h` 69-94. -/
structure ColCore where
  rows : Nat := 0
  numCount : Nat := 0
  nanCount : Nat := 0
  finCount : Nat := 0
  intCount : Nat := 0
  finMin : Option Rat := none
  finMax : Option Rat := none
  minLen : Nat := 2 ^ 64 - 1
  minLenNotEmpty : Nat := 2 ^ 64 - 1
  maxLen : Nat := 0
  emptyCount : Nat := 0
  blankCount : Nat := 0
  nullCount : Nat := 0
  words : Nat := 0
  captured : List (Bytes × Nat) := []
  overflowed : Bool := false
  exampleValue : Bytes := []
  card : Hll := ⟨16, List.replicate (2 ^ 16) 0⟩
  vocab : Hll := ⟨16, List.replicate (2 ^ 16) 0⟩
  sample : List Rat := []

/-- The numeric part of the loop, `column_analyzer.cc` 105-136. -/
def numericCell (t : CellTools) (s : ColCore) (cell : Bytes) : ColCore :=
  match t.parse cell with
  | .bad => { s with nanCount := s.nanCount + 1 }
  | .inf => { s with numCount := s.numCount + 1 }
  | .fin q =>
    { s with
      numCount := s.numCount + 1
      finCount := s.finCount + 1
      sample := if s.sample.length < 10000 then s.sample ++ [q] else s.sample
      intCount := if t.isInt q then s.intCount + 1 else s.intCount
      finMin := match s.finMin with
        | none => some q
        | some m => if q < m then some q else some m
      finMax := match s.finMax with
        | none => some q
        | some m => if m < q then some q else some m }

/-- The capturing part of the loop, `column_analyzer.cc` 138-152; `capture` is the limit, if the column is captured. -/
def captureCell (capture : Option Nat) (s : ColCore) (cell : Bytes) : ColCore :=
  match capture with
  | none => s
  | some limit =>
    if s.overflowed then s
    else if s.captured.length < limit then { s with captured := countUp cell s.captured }
    else if s.captured.any (fun kn => kn.1 = cell) then s
    else { s with overflowed := true }

/-- The body of the loop but for the sums, `column_analyzer.cc` 61-153. -/
def coreCell (t : CellTools) (nulls : List Bytes) (capture : Option Nat) (s : ColCore) (cell : Bytes) : ColCore :=
  let s := if s.rows = 0 then { s with exampleValue := cell } else s
  let s := { s with rows := s.rows + 1 }
  if cell.isEmpty then { s with emptyCount := s.emptyCount + 1 }
  else
    let s := { s with
      minLen := min s.minLen cell.length
      maxLen := max s.maxLen cell.length
      minLenNotEmpty := min s.minLenNotEmpty cell.length
      card := s.card.put (t.hash cell)
      vocab := (tokens cell).foldl (fun v w => v.put (t.hash w)) s.vocab
      words := s.words + (tokens cell).length }
    if isBlank cell then { s with blankCount := s.blankCount + 1 }
    else
      let s := if matchNan nulls cell then { s with nullCount := s.nullCount + 1 } else s
      captureCell capture (numericCell t s cell) cell

/-- The sums of one example, `column_analyzer.cc` 56-59. -/
structure ColSums where
  numSum : Rat := 0
  numCount : Nat := 0
  strCount : Nat := 0
  lenSum : Nat := 0

/-- What the loop does to them, lines 70-83, 94-98, 107-117. -/
def sumCell (t : CellTools) (a : ColSums) (cell : Bytes) : ColSums :=
  if cell.isEmpty then a
  else
    let a := { a with lenSum := a.lenSum + cell.length, strCount := a.strCount + 1 }
    if isBlank cell then a
    else match t.parse cell with
      | .fin q => { a with numSum := a.numSum + q, numCount := a.numCount + 1 }
      | _ => a

/-- `avg += (sum / count - avg) * count / total`, lines 156-159 and 162-165. Zero divided by zero is NaN. (The sum of no
numbers is zero, so that other quotients by zero do not occur.) -/
def updateAvg (avg : Option Rat) (sum : Rat) (count total : Nat) : Option Rat :=
  match avg with
  | none => none
  | some a => if count = 0 then none else some (a + (sum / count - a) * count / total)

/-- A `Column_analysis`. -/
structure ColStats where
  core : ColCore := {}
  mean : Option Rat := some 0
  avgLen : Option Rat := some 0

/-- The body of the outer loop of `analyze`, `column_analyzer.cc` 46-165, for the cells of one column of an example. -/
def analyzeColumn (t : CellTools) (nulls : List Bytes) (capture : Option Nat) (s : ColStats) (cells : List Bytes) : ColStats :=
  let a := cells.foldl (sumCell t) {}
  let core := cells.foldl (coreCell t nulls capture) s.core
  { core := core
    mean := updateAvg s.mean a.numSum a.numCount core.finCount
    avgLen := updateAvg s.avgLen a.lenSum a.strCount core.rows }

/-- An `Example` of string columns: its columns, and how many of its rows are padding. -/
structure TextExample where
  columns : List (List Bytes)
  padding : Nat

/-- `analyze`, `column_analyzer.cc` 40-167, from the column `i` on.  Columns without statistics are left out; `padding` is
not looked at. -/
def analyzeFrom (t : CellTools) (nulls : List Bytes) (captured : List Nat) (limit : Nat) :
    (i : Nat) → List ColStats → List (List Bytes) → List ColStats
  | i, s :: ss, c :: cs =>
    analyzeColumn t nulls (if captured.contains i then some limit else none) s c :: analyzeFrom t nulls captured limit (i + 1) ss cs
  | _, ss, _ => ss

/-- The cleaning at the end, `module.cc` 73-83. -/
def cleanUp (s : ColStats) : ColStats :=
  { s with core := { s.core with
      minLen := if s.core.minLen = 2 ^ 64 - 1 then 0 else s.core.minLen
      minLenNotEmpty := if s.core.minLenNotEmpty = 2 ^ 64 - 1 then 0 else s.core.minLenNotEmpty } }

/-- `analyze_dataset`, `module.cc` 41-86, for a reader that gives the examples `es` and a schema with `n` string
attributes. (The peeked example is the first of those read.) -/
def analyzeDataset (t : CellTools) (nulls : List Bytes) (captured : List Nat) (limit n : Nat) (es : List TextExample) : Res (List ColStats) :=
  if es.isEmpty then .err .dataReader
  else .ok ((es.foldl (fun ss e => analyzeFrom t nulls captured limit 0 ss e.columns) (List.replicate n {})).map cleanUp)

/-- The counts as Python sees them, `module.cc` 99-112. -/
def exported (s : ColStats) : List (String × Nat) :=
  [("rows_seen", s.core.rows), ("numeric_count", s.core.numCount), ("numeric_finite_count", s.core.numCount),
    ("numeric_nan_count", s.core.nanCount), ("numeric_int_count", s.core.intCount), ("string_empty_count", s.core.emptyCount),
    ("string_min_length", s.core.minLen), ("string_min_length_not_empty", s.core.minLenNotEmpty),
    ("string_max_length", s.core.maxLen), ("string_only_whitespace_count", s.core.blankCount),
    ("string_null_like_count", s.core.nullCount), ("string_num_words", s.core.words)]

end Mlio
