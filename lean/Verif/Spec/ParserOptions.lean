import Verif.Spec.Number

/-! # What the parser options promise: numbers in a base, and texts that stand for "not a number" -/

namespace Mlio.Spec

/-- The value of a character as a digit: `0`-`9`, then the letters, small or capital. -/
def digitOf (c : UInt8) : Option Nat :=
  if 48 ≤ c.toNat ∧ c.toNat ≤ 57 then some (c.toNat - 48)
  else if 97 ≤ c.toNat ∧ c.toNat ≤ 122 then some (c.toNat - 87)
  else if 65 ≤ c.toNat ∧ c.toNat ≤ 90 then some (c.toNat - 55)
  else none

/-- An integer in text: white space, a sign, digits, white space. -/
structure BaseText where
  pre : Bytes
  sign : Sign
  digits : Bytes
  post : Bytes

/-- It is an integer in base `b`. -/
structure BaseText.Valid (b : Nat) (t : BaseText) : Prop where
  pre : White t.pre
  digits : t.digits ≠ []
  below_base : ∀ c ∈ t.digits, ∃ d, digitOf c = some d ∧ d < b
  post : White t.post

def BaseText.bytes (t : BaseText) : Bytes := t.pre ++ t.sign.bytes ++ t.digits ++ t.post

/-- Its value in base `b`. -/
def BaseText.value (b : Nat) (t : BaseText) : Int :=
  let n : Nat := t.digits.foldl (fun v c => b * v + (digitOf c).getD 0) 0
  if t.sign = .minus then -(n : Int) else n

/-- `w` without the white space around it in `s`: it begins and ends with something else, unless it is empty. -/
def StrippedOf (w s : Bytes) : Prop :=
  ∃ pre post, s = pre ++ w ++ post ∧ White pre ∧ White post ∧
    (∀ c, w.head? = some c → ¬ White [c]) ∧ (∀ c, w.getLast? = some c → ¬ White [c])

end Mlio.Spec
