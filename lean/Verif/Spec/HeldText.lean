import Verif.Spec.Utf8Stream

/-! # Converters that hold characters back, for C46 -/

namespace Mlio.Spec

/-- The whole text in UTF-8 but for what the converter still holds back at the end, and the state it is in then. -/
inductive DecodesTo (c : Codec) : c.σ → Bytes → Bytes → c.σ → Prop
  | nil (s : c.σ) : DecodesTo c s [] [] s
  | char (s s' t : c.σ) (b out text : Bytes) (n : Nat) : b ≠ [] → c.step s b = .done n out s' →
      DecodesTo c s' (b.drop n) text t → DecodesTo c s b (out ++ text) t

/-- The bytes that the reads have returned. -/
def readBytes (os : List (Res Bytes)) : Bytes := os.flatMap fun
  | .ok x => x
  | _ => []

/-- A letter, to which accents can be added. -/
def isLetter (b : UInt8) : Bool := (65 ≤ b && b ≤ 90) || (97 ≤ b && b ≤ 122)

/-- A part of CP1258, for Vietnamese: ASCII and the grave accent, which follows its letter as the byte CC.  A letter is held back, as an accent may follow;
`a` with the accent is one character of UTF-8 (C3 A0), and the other letters are written with a combining accent (CC 80) (some of them are one character,
too, which is left out). -/
def codec1258 : Codec where
  σ := Option UInt8
  init := none
  step
    | _, [] => .incomplete
    | none, b :: _ =>
      if isLetter b then .done 1 [] (some b) else if b < 128 then .done 1 [b] none else if b = 0xCC then .done 1 [0xCC, 0x80] none else .invalid
    | some l, b :: _ =>
      if b = 0xCC then .done 1 (if l = 97 then [0xC3, 0xA0] else [l, 0xCC, 0x80]) none
      else if isLetter b then .done 1 [l] (some b) else if b < 128 then .done 1 [l, b] none else .invalid

/-- What `codec1258` writes when it is told that the text ends. -/
def flush1258 : Option UInt8 → Bytes
  | none => []
  | some l => [l]

end Mlio.Spec
