import Verif.Basic

/-!
# Data types and number parsing

`src/mlio/util/number.cc`, `src/mlio/parser.cc`, `src/mlio/data_type.cc`, `src/mlio/util/string.cc`.

Integers are parsed by `absl::SimpleAtoi`, which is not part of the repository; `simpleAtoi` models the
algorithm of Abseil (`absl/strings/numbers.cc`, `safe_parse_sign_and_base`, `safe_parse_positive_int`,
`safe_parse_negative_int`), including the value that it leaves in its output when it fails, which the code inspects.
Floating-point parsing (`absl::SimpleAtof`, `SimpleAtod`) is a parameter.
-/

namespace Mlio

/-- `Data_type`, `include/mlio/data_type.h` 34-48. -/
inductive DataType where
  | size | float16 | float32 | float64 | int8 | int16 | int32 | int64
  | uint8 | uint16 | uint32 | uint64 | string
  deriving DecidableEq, Repr

/-- An integer type: signedness and width. -/
structure IntKind where
  signed : Bool
  bits : Nat
  deriving DecidableEq, Repr

/-- `std::numeric_limits<T>::max()`. -/
def IntKind.max (k : IntKind) : Int := if k.signed then 2 ^ (k.bits - 1) - 1 else 2 ^ k.bits - 1

/-- `std::numeric_limits<T>::min()`. -/
def IntKind.min (k : IntKind) : Int := if k.signed then -2 ^ (k.bits - 1) else 0

/-- The types `try_parse_int` is instantiated for, `number.cc` 149-175. -/
def intKind : DataType → Option IntKind
  | .int8 => some ⟨true, 8⟩ | .int16 => some ⟨true, 16⟩ | .int32 => some ⟨true, 32⟩ | .int64 => some ⟨true, 64⟩
  | .uint8 => some ⟨false, 8⟩ | .uint16 => some ⟨false, 16⟩ | .uint32 => some ⟨false, 32⟩
  | .uint64 => some ⟨false, 64⟩ | .size => some ⟨false, 64⟩
  | _ => none

/-- `absl::ascii_isspace`, and `std::isspace` in the C locale. -/
def isSpace (c : UInt8) : Bool := c == 32 || (9 ≤ c && c ≤ 13)

/-- `trim`, `src/mlio/util/string.cc` 27-60, and the first part of Abseil's `safe_parse_sign_and_base`. -/
def trim (s : Bytes) : Bytes := ((s.dropWhile isSpace).reverse.dropWhile isSpace).reverse

/-- A decimal digit. -/
def digit? (c : UInt8) : Option Nat := if 48 ≤ c && c ≤ 57 then some (c.toNat - 48) else none

/-- Abseil's `safe_parse_positive_int` for base 10: success and the value left in the output. -/
def parsePositive (vmax : Int) : Int → Bytes → Bool × Int
  | v, [] => (true, v)
  | v, c :: cs =>
    match digit? c with
    | none => (false, v)
    | some d =>
      if v > vmax / 10 then (false, vmax)
      else if v * 10 > vmax - d then (false, vmax)
      else parsePositive vmax (v * 10 + d) cs

/-- Abseil's `safe_parse_negative_int` for base 10.  The division of C++ rounds to zero. -/
def parseNegative (vmin : Int) : Int → Bytes → Bool × Int
  | v, [] => (true, v)
  | v, c :: cs =>
    match digit? c with
    | none => (false, v)
    | some d =>
      if v < vmin.tdiv 10 then (false, vmin)
      else if v * 10 < vmin + d then (false, vmin)
      else parseNegative vmin (v * 10 - d) cs

/-- `absl::SimpleAtoi<T>` for a 32 or 64-bit type (`safe_int_internal`, `safe_uint_internal`). -/
def simpleAtoi (k : IntKind) (s : Bytes) : Bool × Int :=
  match trim s with
  | [] => (false, 0)
  | c :: cs =>
    if c = 45 then
      match cs with
      | [] => (false, 0)
      | _ :: _ => if k.signed then parseNegative k.min 0 cs else (false, 0)
    else if c = 43 then
      match cs with
      | [] => (false, 0)
      | _ :: _ => parsePositive k.max 0 cs
    else parsePositive k.max 0 (c :: cs)

/-- `Parse_result`, `include/mlio/parser.h` 31, with the value stored if it is `ok`. -/
inductive Parsed (α : Type) where
  | ok (v : α) | failed | overflowed
  deriving DecidableEq, Repr

/-- `try_parse_int_core` for types of at least 4 bytes, `number.cc` 81-99. -/
def parseWide (k : IntKind) (s : Bytes) : Parsed Int :=
  match simpleAtoi k s with
  | (true, v) => .ok v
  | (false, v) => if v = k.max ∨ v = k.min then .overflowed else .failed

/-- `try_parse_int`, `number.cc` 101-121 and 142-147. -/
def tryParseInt (k : IntKind) (s : Bytes) : Parsed Int :=
  if 32 ≤ k.bits then parseWide k s
  else
    match parseWide ⟨k.signed, 32⟩ s with
    | .ok v => if v < k.min ∨ v > k.max then .overflowed else .ok v
    | r => r

/-- What is needed of floating-point numbers: `absl::SimpleAtof`/`SimpleAtod`, `std::isinf`, `quiet_NaN`. -/
structure FloatLib where
  F : Type
  atof : Bytes → Option F
  isInf : F → Bool
  nan : F

/-- `try_parse_float_core`, `number.cc` 54-79; `nans` are the `nan_values` (empty: also the null pointer). -/
def tryParseFloat (L : FloatLib) (nans : List Bytes) (s : Bytes) : Parsed L.F :=
  match L.atof s with
  | none => if nans.contains (trim s) then .ok L.nan else .failed
  | some v => if L.isInf v then .overflowed else .ok v

/-- The value of a tensor element: an integer, a `float`, a `double` or a string. -/
inductive Value (F32 F64 : Type) where
  | int (v : Int) | f32 (v : F32) | f64 (v : F64) | str (s : Bytes)
  deriving DecidableEq, Repr

/-- `Parser_options`, `parser.h` 33-40. -/
structure ParserOptions where
  nans : List Bytes := []
  base : Nat := 10
  deriving DecidableEq, Repr

/-- The parsers that `make_parser` makes, `parser.cc` 36-99.  The base is handed to `try_parse_int`, which does not use
it (`number.cc` 81-83). -/
def parserOf (F32 F64 : FloatLib) (o : ParserOptions) (dt : DataType) (s : Bytes) : Parsed (Value F32.F F64.F) :=
  match dt with
  | .float16 => .failed
  | .float32 => match tryParseFloat F32 o.nans s with
    | .ok v => .ok (.f32 v) | .failed => .failed | .overflowed => .overflowed
  | .float64 => match tryParseFloat F64 o.nans s with
    | .ok v => .ok (.f64 v) | .failed => .failed | .overflowed => .overflowed
  | .string => .ok (.str s)
  | dt => match intKind dt with
    | none => .failed
    | some k => match tryParseInt k s with
      | .ok v => .ok (.int v) | .failed => .failed | .overflowed => .overflowed

/-- `infer_data_type`, `data_type.cc` 24-51. -/
def inferDataType (F64 : FloatLib) (s : Bytes) : DataType :=
  if s.isEmpty then .string
  else
    match tryParseInt ⟨true, 64⟩ s with
    | .ok _ => .int64
    | .overflowed =>
      match tryParseInt ⟨false, 64⟩ s with
      | .ok _ => .uint64
      | _ => match tryParseFloat F64 [] s with
        | .ok _ => .float64
        | _ => .string
    | .failed =>
      match tryParseFloat F64 [] s with
      | .ok _ => .float64
      | _ => .string

end Mlio
