import Verif.Model.Utf8Stream

/-!
# What UTF-8 conversion of streams is meant to do
-/

namespace Mlio.Spec

/-- What any sensible converter does: it consumes and writes at most four bytes per character (at least consuming one,
and at most `2 ^ 24` for a shift sequence), and what it finds does not depend on what comes later. -/
structure LawfulCodec (c : Codec) : Prop where
  size : ∀ s b n out s', c.step s b = .done n out s' → 0 < n ∧ n ≤ b.length ∧ out.length ≤ 4
  done_stable : ∀ s b n out s' x, c.step s b = .done n out s' → c.step s (b ++ x) = .done n out s'
  invalid_stable : ∀ s b x, c.step s b = .invalid → c.step s (b ++ x) = .invalid
  incomplete_short : ∀ s b, c.step s b = .incomplete → b.length < 2 ^ 24

/-- How a text ends: after a character, in the middle of one, or with something that is not a character. -/
inductive TextEnd where
  | clean
  | truncated
  | malformed
  deriving DecidableEq, Repr

/-- The whole text in UTF-8, and how it ends. -/
inductive Decodes (c : Codec) : c.σ → Bytes → Bytes → TextEnd → Prop
  | clean (s : c.σ) : Decodes c s [] [] .clean
  | truncated (s : c.σ) (b : Bytes) : b ≠ [] → c.step s b = .incomplete → Decodes c s b [] .truncated
  | malformed (s : c.σ) (b : Bytes) : b ≠ [] → c.step s b = .invalid → Decodes c s b [] .malformed
  | char (s s' : c.σ) (b out text : Bytes) (n : Nat) (e : TextEnd) : b ≠ [] → c.step s b = .done n out s' →
      Decodes c s' (b.drop n) text e → Decodes c s b (out ++ text) e

/-- Successive reads of `ns` bytes each from a text of which the first error (if it has any) comes after `text`: the
next bytes each time, at least one unless none was asked for or the text ends; a stream error only if the text is
faulty, and then at the latest where it would otherwise be read as ended. -/
inductive TextReads (faulty : Bool) : (text : Bytes) → List Nat → List (Res Bytes) → Prop
  | nil (text : Bytes) : TextReads faulty text [] []
  | zero (text : Bytes) (ns : List Nat) (os : List (Res Bytes)) : TextReads faulty text ns os →
      TextReads faulty text (0 :: ns) (.ok [] :: os)
  | more (x text : Bytes) (n : Nat) (ns : List Nat) (os : List (Res Bytes)) : x ≠ [] → x.length ≤ n →
      TextReads faulty text ns os → TextReads faulty (x ++ text) (n :: ns) (.ok x :: os)
  | done (n : Nat) (ns : List Nat) (os : List (Res Bytes)) : faulty = false →
      TextReads faulty [] ns os → TextReads faulty [] (n :: ns) (.ok [] :: os)
  | fault (text : Bytes) (n : Nat) (ns : List Nat) (os : List (Res Bytes)) : faulty = true → 0 < n →
      os.length = ns.length → TextReads faulty text (n :: ns) (.err .streamError :: os)

/-- Byte order marks. -/
def bomUtf8 : Bytes := [0xEF, 0xBB, 0xBF]
/-- See `bomUtf8`. -/
def bomUtf32be : Bytes := [0x00, 0x00, 0xFE, 0xFF]
/-- See `bomUtf8`. -/
def bomUtf32le : Bytes := [0xFF, 0xFE, 0x00, 0x00]
/-- See `bomUtf8`. -/
def bomUtf16be : Bytes := [0xFE, 0xFF]
/-- See `bomUtf8`. -/
def bomUtf16le : Bytes := [0xFF, 0xFE]

/-- The encoding that a byte order mark stands for; the mark of UTF-32 is preferred to that of UTF-16. -/
inductive HasMark : Bytes → String → Prop
  | utf8 (x : Bytes) : bomUtf8 <+: x → HasMark x "UTF-8"
  | utf32be (x : Bytes) : bomUtf32be <+: x → HasMark x "UTF-32BE"
  | utf32le (x : Bytes) : bomUtf32le <+: x → HasMark x "UTF-32LE"
  | utf16be (x : Bytes) : bomUtf16be <+: x → HasMark x "UTF-16BE"
  | utf16le (x : Bytes) : bomUtf16le <+: x → ¬ bomUtf32le <+: x → HasMark x "UTF-16LE"

/-! ## UTF-16 and UTF-32 -/

/-- Two bytes of UTF-16. -/
def unit16 (be : Bool) (v : Nat) : Bytes :=
  if be then [UInt8.ofNat (v / 256), UInt8.ofNat (v % 256)] else [UInt8.ofNat (v % 256), UInt8.ofNat (v / 256)]

/-- A character in UTF-16. -/
def encode16 (be : Bool) (ch : Char) : Bytes :=
  if ch.toNat < 0x10000 then unit16 be ch.toNat
  else unit16 be (0xD800 + (ch.toNat - 0x10000) / 0x400) ++ unit16 be (0xDC00 + (ch.toNat - 0x10000) % 0x400)

/-- A character in UTF-32. -/
def encode32 (be : Bool) (ch : Char) : Bytes :=
  let l := [UInt8.ofNat (ch.toNat % 256), UInt8.ofNat (ch.toNat / 256 % 256), UInt8.ofNat (ch.toNat / 65536 % 256),
    UInt8.ofNat (ch.toNat / 16777216)]
  if be then l.reverse else l

/-- A character in UTF-8, as in the core library of Lean. -/
def encode8 (ch : Char) : Bytes := String.utf8EncodeChar ch

/-- The value of two bytes. -/
def value16 (be : Bool) (a b : UInt8) : Nat := if be then a.toNat * 256 + b.toNat else b.toNat * 256 + a.toNat

/-- A converter from UTF-16. -/
def codec16 (be : Bool) : Codec where
  σ := Unit
  init := ()
  step _ b :=
    match b with
    | x :: y :: r =>
      let v := value16 be x y
      if v < 0xD800 ∨ 0xE000 ≤ v then .done 2 (encode8 (Char.ofNat v)) ()
      else if 0xDC00 ≤ v then .invalid
      else
        match r with
        | z :: w :: _ =>
          let v2 := value16 be z w
          if 0xDC00 ≤ v2 ∧ v2 < 0xE000 then
            .done 4 (encode8 (Char.ofNat (0x10000 + (v - 0xD800) * 0x400 + (v2 - 0xDC00)))) ()
          else .invalid
        | _ => .incomplete
    | _ => .incomplete

/-- The value of four bytes. -/
def value32 (be : Bool) (a b c d : UInt8) : Nat :=
  if be then ((a.toNat * 256 + b.toNat) * 256 + c.toNat) * 256 + d.toNat
  else ((d.toNat * 256 + c.toNat) * 256 + b.toNat) * 256 + a.toNat

/-- A converter from UTF-32. -/
def codec32 (be : Bool) : Codec where
  σ := Unit
  init := ()
  step _ b :=
    match b with
    | x :: y :: z :: w :: _ =>
      let v := value32 be x y z w
      if v < 0xD800 ∨ (0xE000 ≤ v ∧ v < 0x110000) then .done 4 (encode8 (Char.ofNat v)) () else .invalid
    | _ => .incomplete

/-- The converters for the encodings that are detected. -/
def unicodeCodec (name : String) : Codec :=
  if name = "UTF-16LE" then codec16 false else if name = "UTF-16BE" then codec16 true
  else if name = "UTF-32LE" then codec32 false else codec32 true

end Mlio.Spec
