import Verif.Model.Number
import Verif.Model.ToDict

/-!
# Numbers in floating-point columns

`absl::SimpleAtof` and `absl::SimpleAtod`, which `number.cc` 37-45 chooses for `float` and `double`, in place of the unknown functions of `FloatLib`.  They belong to Abseil
(20210324, `third-party/CMakeLists.txt` 14-20), whose sources and documentation are not here: that the accepted texts are those below and the value is the nearest one was written
down from general knowledge of that release and has not been checked against it.  It is an assumption of the trusted base.  Citations of `number.cc` in definitions for the inside of
these functions are of the call.  Left out: texts of fifty million digits and more, which Abseil is believed to refuse.
-/

namespace Mlio

/-- A floating-point format, for the types at `number.cc` 37-45: numbers `m * 2 ^ e` with `m < 2 ^ p` and `emin ≤ e ≤ emax`. -/
structure FloatFormat where
  p : Nat
  emin : Int
  emax : Int
  deriving DecidableEq, Repr

/-- `float`, `number.cc` 37-40. -/
def binary32 : FloatFormat := ⟨24, -149, 104⟩

/-- `double`, `number.cc` 42-45. -/
def binary64 : FloatFormat := ⟨53, -1074, 971⟩

/-- A value, `v` at `number.cc` 57: a number, an infinity, or NaN. -/
inductive Flt where
  | num (neg : Bool) (m : Nat) (e : Int)
  | inf (neg : Bool)
  | nan
  deriving DecidableEq, Repr

/-- `std::isinf`, `number.cc` 72-74. -/
def Flt.isInf : Flt → Bool
  | .inf _ => true
  | _ => false

/-! ## Rounding -/

/-- Is `2 ^ k ≤ a / d`.  Part of the function called at `number.cc` 59. -/
def powLe (a d : Nat) (k : Int) : Bool := if 0 ≤ k then decide (d * 2 ^ k.toNat ≤ a) else decide (d ≤ a * 2 ^ (-k).toNat)

/-- The greatest `k` with `2 ^ k ≤ a / d`.  Part of the function called at `number.cc` 59. -/
def scaleOf (a d : Nat) : Int :=
  let k : Int := (Nat.log2 a : Int) - Nat.log2 d
  if powLe a d k then k else k - 1

/-- `a / d / 2 ^ e`, rounded to the nearest number, to the even one of two.  Part of the function called at `number.cc` 59. -/
def roundAt (a d : Nat) (e : Int) : Nat := if 0 ≤ e then roundEven a (d * 2 ^ e.toNat) else roundEven (a * 2 ^ (-e).toNat) d

/-- The number of the format nearest to `a / d`, with a sign; an infinity if it is too large.  Part of the function called at `number.cc` 59. -/
def toFlt (f : FloatFormat) (neg : Bool) (a d : Nat) : Flt :=
  if a = 0 then .num neg 0 f.emin
  else
    let e := max f.emin (scaleOf a d - (f.p - 1))
    let m := roundAt a d e
    if m < 2 ^ f.p then
      if e ≤ f.emax then .num neg m e else .inf neg
    else if e + 1 ≤ f.emax then .num neg (2 ^ (f.p - 1)) (e + 1) else .inf neg

/-! ## Syntax -/

/-- `IsDigit<10>` and `IsDigit<16>`, `charconv_parse.cc`.  Part of the function called at `number.cc` 59. -/
def numDigit (hex : Bool) (c : UInt8) : Bool :=
  (48 ≤ c && c ≤ 57) || (hex && ((65 ≤ c && c ≤ 70) || (97 ≤ c && c ≤ 102)))

/-- `ToDigit`.  Part of the function called at `number.cc` 59. -/
def digitNat (c : UInt8) : Nat := if c ≤ 57 then c.toNat - 48 else if c ≤ 70 then c.toNat - 55 else c.toNat - 87

/-- `ConsumeDigits`.  Part of the function called at `number.cc` 59. -/
def digitsNat (base : Nat) (ds : Bytes) : Nat := ds.foldl (fun v c => base * v + digitNat c) 0

/-- `IsExponentCharacter`.  Part of the function called at `number.cc` 59. -/
def isExpChar (hex : Bool) (c : UInt8) : Bool := if hex then c == 112 || c == 80 else c == 101 || c == 69

/-- The exponent, `ParseFloat`: if there are no digits then it is not one.  The exponent and what is behind it.  Part of the function called at `number.cc` 59. -/
def scanExp (hex : Bool) (s : Bytes) : Int × Bytes :=
  match s with
  | [] => (0, [])
  | c :: r =>
    if isExpChar hex c then
      let neg := r.head? == some 45
      let r1 := if r.head? == some 45 || r.head? == some 43 then r.tail else r
      let ds := r1.takeWhile (numDigit false)
      if ds = [] then (0, c :: r)
      else ((if neg then -(digitsNat 10 ds : Int) else digitsNat 10 ds), r1.dropWhile (numDigit false))
    else (0, c :: r)

/-- `ParseFloat`, without infinities and NaN: digits, exponent and what is behind.  The exponent is one of ten, or of two if the number is hexadecimal.  Part of the function called at `number.cc` 59. -/
def scanFloat (hex : Bool) (s : Bytes) : Option (Nat × Int × Bytes) :=
  let i := s.takeWhile (numDigit hex)
  let r := s.dropWhile (numDigit hex)
  let f := if r.head? == some 46 then r.tail.takeWhile (numDigit hex) else []
  let r := if r.head? == some 46 then r.tail.dropWhile (numDigit hex) else r
  if i = [] ∧ f = [] then none
  else
    let (x, r) := scanExp hex r
    some (digitsNat (if hex then 16 else 10) (i ++ f), x - (if hex then 4 else 1) * (f.length : Int), r)

/-- ASCII lower case.  Part of the function called at `number.cc` 59. -/
def lowerByte (c : UInt8) : UInt8 := if 65 ≤ c && c ≤ 90 then c + 32 else c

/-- `IsNanChar`.  Part of the function called at `number.cc` 59. -/
def isNanChar (c : UInt8) : Bool := c == 95 || (48 ≤ c && c ≤ 57) || (65 ≤ c && c ≤ 90) || (97 ≤ c && c ≤ 122)

/-- Is the text in parentheses, of letters, digits and underscores.  Part of the function called at `number.cc` 59. -/
def nanPayload (r : Bytes) : Bool :=
  match r with
  | c :: cs => c == 40 && cs.getLast? == some 41 && cs.dropLast.all isNanChar
  | [] => false

/-- `ParseInfinityOrNan`, for the whole text.  Part of the function called at `number.cc` 59. -/
def specialFlt (neg : Bool) (s : Bytes) : Option Flt :=
  let l := s.map lowerByte
  if l = [105, 110, 102] ∨ l = [105, 110, 102, 105, 110, 105, 116, 121] then some (.inf neg)
  else if l.take 3 = [110, 97, 110] ∧ (s.length = 3 ∨ nanPayload (s.drop 3) = true) then some .nan
  else none

/-- `a * base ^ x` as a fraction.  Part of the function called at `number.cc` 59. -/
def fracOf (base a : Nat) (x : Int) : Nat × Nat := if 0 ≤ x then (a * base ^ x.toNat, 1) else (a, base ^ (-x).toNat)

/-- `from_chars` behind the sign, for the whole text.  Part of the function called at `number.cc` 59. -/
def fromChars (f : FloatFormat) (neg : Bool) (s : Bytes) : Option Flt :=
  if s.take 2 = [48, 120] ∨ s.take 2 = [48, 88] then
    match scanFloat true (s.drop 2) with
    | some (a, x, []) => some (toFlt f neg (fracOf 2 a x).1 (fracOf 2 a x).2)
    | _ => none
  else
    match specialFlt neg s with
    | some v => some v
    | none =>
      match scanFloat false s with
      | some (a, x, []) => some (toFlt f neg (fracOf 10 a x).1 (fracOf 10 a x).2)
      | _ => none

/-- `absl::SimpleAtof`, `absl::SimpleAtod`: white space around the number and a sign; `+-` is no sign.  Part of the function called at `number.cc` 59. -/
def simpleAtof (f : FloatFormat) (s : Bytes) : Option Flt :=
  match trim s with
  | 43 :: 45 :: _ => none
  | 43 :: r => fromChars f false r
  | 45 :: r => fromChars f true r
  | r => fromChars f false r

/-- The functions for a format, `number.cc` 37-45. -/
def ieee (f : FloatFormat) : FloatLib := ⟨Flt, simpleAtof f, Flt.isInf, .nan⟩

end Mlio
