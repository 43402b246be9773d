import Verif.Spec.Number
import Verif.Model.Decimal
import Mathlib.Algebra.Order.Field.Rat
import Mathlib.Algebra.Order.Field.Power
import Mathlib.Algebra.Order.Ring.Abs

/-!
# What numbers in texts mean
-/

namespace Mlio.Spec

/-! ## Texts -/

/-- A digit. -/
def IsDigitOf (hex : Bool) (c : UInt8) : Prop :=
  (48 ≤ c.toNat ∧ c.toNat ≤ 57) ∨ (hex = true ∧ ((65 ≤ c.toNat ∧ c.toNat ≤ 70) ∨ (97 ≤ c.toNat ∧ c.toNat ≤ 102)))

/-- The value of digits. -/
def digitSum (base : Nat) : Bytes → Nat
  | [] => 0
  | c :: cs => (if c.toNat ≤ 57 then c.toNat - 48 else if c.toNat ≤ 70 then c.toNat - 55 else c.toNat - 87) * base ^ cs.length + digitSum base cs

/-- A number in a text: white space, a sign, `0x` or `0X` (`prefix`) if it is hexadecimal, digits, maybe a point with digits behind it, maybe an exponent, white space. -/
structure NumText where
  pre : Bytes
  sign : Sign
  hex : Option UInt8
  whole : Bytes
  frac : Option Bytes
  expo : Option (UInt8 × Sign × Bytes)
  post : Bytes

structure NumText.Valid (t : NumText) : Prop where
  pre : White t.pre
  post : White t.post
  hex : ∀ c, t.hex = some c → c = 120 ∨ c = 88
  whole : ∀ c ∈ t.whole, IsDigitOf t.hex.isSome c
  frac : ∀ c ∈ t.frac.getD [], IsDigitOf t.hex.isSome c
  digits : t.whole ++ t.frac.getD [] ≠ []
  letter : ∀ x, t.expo = some x → (if t.hex.isSome then x.1 = 112 ∨ x.1 = 80 else x.1 = 101 ∨ x.1 = 69)
  expo : ∀ x, t.expo = some x → x.2.2 ≠ [] ∧ ∀ c ∈ x.2.2, IsDigitOf false c

def NumText.bytes (t : NumText) : Bytes :=
  t.pre ++ t.sign.bytes ++ (t.hex.elim [] fun c => [48, c]) ++ t.whole ++ (t.frac.elim [] fun f => 46 :: f) ++
    (t.expo.elim [] fun x => x.1 :: (x.2.1.bytes ++ x.2.2)) ++ t.post

/-- The exponent. -/
def NumText.exponent (t : NumText) : ℤ :=
  t.expo.elim 0 fun x => if x.2.1 = .minus then -(digitSum 10 x.2.2 : ℤ) else digitSum 10 x.2.2

/-- The number. -/
def NumText.value (t : NumText) : ℚ :=
  (if t.sign = .minus then -1 else 1) *
    (if t.hex.isSome then (digitSum 16 (t.whole ++ t.frac.getD []) : ℚ) / 16 ^ (t.frac.getD []).length * 2 ^ t.exponent
     else (digitSum 10 (t.whole ++ t.frac.getD []) : ℚ) / 10 ^ (t.frac.getD []).length * 10 ^ t.exponent)

/-- A text for NaN: white space, a sign, the three letters in any case, maybe letters, digits and underscores in parentheses, white space. -/
def IsNanText (s : Bytes) : Prop :=
  ∃ (pre : Bytes) (sign : Sign) (a b c : UInt8) (args : Option Bytes) (post : Bytes), White pre ∧ White post ∧
    (a = 110 ∨ a = 78) ∧ (b = 97 ∨ b = 65) ∧ (c = 110 ∨ c = 78) ∧
    (∀ x ∈ args.getD [], x.toNat = 95 ∨ (48 ≤ x.toNat ∧ x.toNat ≤ 57) ∨ (65 ≤ x.toNat ∧ x.toNat ≤ 90) ∨ (97 ≤ x.toNat ∧ x.toNat ≤ 122)) ∧
    s = pre ++ sign.bytes ++ [a, b, c] ++ (args.elim [] fun x => 40 :: (x ++ [41])) ++ post

/-- A text for an infinity: white space, a sign, `inf` or `infinity` with letters in any case, white space. -/
def IsInfText (s : Bytes) : Prop :=
  ∃ (pre : Bytes) (sign : Sign) (word post : Bytes), White pre ∧ White post ∧
    (List.Forall₂ (fun c l => c = l ∨ c = l - 32) word [105, 110, 102] ∨
      List.Forall₂ (fun c l => c = l ∨ c = l - 32) word [105, 110, 102, 105, 110, 105, 116, 121]) ∧
    s = pre ++ sign.bytes ++ word ++ post

/-- The text is a number. -/
def IsNumText (s : Bytes) : Prop := ∃ t : NumText, t.Valid ∧ t.bytes = s

/-- A text of the set, with white space around it. -/
def InSet (set : List Bytes) (s : Bytes) : Prop :=
  ∃ pre word post, White pre ∧ White post ∧ s = pre ++ word ++ post ∧ word ∈ set ∧
    (∀ c, word.head? = some c → ¬ White [c]) ∧ (∀ c, word.getLast? = some c → ¬ White [c])

/-! ## Values -/

/-- IEEE 754 binary32: 24 bits, the least number is 2^-149, the greatest (2^24 - 1) * 2^104. -/
def ieeeSingle : FloatFormat := ⟨24, -149, 104⟩

/-- IEEE 754 binary64: 53 bits, the least number is 2^-1074, the greatest (2^53 - 1) * 2^971. -/
def ieeeDouble : FloatFormat := ⟨53, -1074, 971⟩

/-- The columns of floating-point numbers: their types, formats and values. -/
inductive FloatColumn : DataType → FloatFormat → (Flt → Value Flt Flt) → Prop
  | single : FloatColumn .float32 ieeeSingle .f32
  | double : FloatColumn .float64 ieeeDouble .f64

/-- The number that a value is. -/
def Flt.value : Flt → Option ℚ
  | .num neg m e => some ((if neg then -1 else 1) * (m * 2 ^ e))
  | _ => none

/-- The sign of a number, also of zero. -/
def Flt.minus : Flt → Bool
  | .num neg _ _ => neg
  | .inf neg => neg
  | .nan => false

/-- The numbers of a format. -/
def IsFloat (f : FloatFormat) (q : ℚ) : Prop := ∃ m e : ℤ, |m| < 2 ^ f.p ∧ f.emin ≤ e ∧ e ≤ f.emax ∧ q = m * 2 ^ e

/-- Those with an even significand. -/
def IsEvenFloat (f : FloatFormat) (q : ℚ) : Prop := ∃ m e : ℤ, |m| < 2 ^ f.p ∧ f.emin ≤ e ∧ e ≤ f.emax ∧ 2 ∣ m ∧ q = m * 2 ^ e

/-- `r` is the number of the format that is nearest to `q`, the even one of two. -/
structure Nearest (f : FloatFormat) (q r : ℚ) : Prop where
  float : IsFloat f r
  near : ∀ r', IsFloat f r' → |q - r| ≤ |q - r'|
  even : ∀ r', IsFloat f r' → r' ≠ r → |q - r| = |q - r'| → IsEvenFloat f r

/-- The number is beyond the greatest one of the format by at least half of a step. -/
def TooLarge (f : FloatFormat) (q : ℚ) : Prop := (2 ^ f.p - 1 / 2) * 2 ^ f.emax ≤ |q|

/-- A number that its column can hold. -/
def NumberFits (dt : DataType) (t : NumText) : Prop := ∃ f mk, FloatColumn dt f mk ∧ t.Valid ∧ ¬ TooLarge f t.value

end Mlio.Spec
