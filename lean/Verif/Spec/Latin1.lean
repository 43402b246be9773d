import Verif.Spec.HeldText

/-! # Latin-1, for C46 -/

namespace Mlio.Spec

/-- A text in Latin-1 (ISO 8859-1): one byte for each character, its number. -/
def latin1 (cs : List Char) : Bytes := cs.map fun ch => UInt8.ofNat ch.toNat

/-- A converter from Latin-1. -/
def codecLatin1 : Codec where
  σ := Unit
  init := ()
  step _ b :=
    match b with
    | [] => .incomplete
    | x :: _ => .done 1 (encode8 (Char.ofNat x.toNat)) ()

end Mlio.Spec
