import Verif.Basic

/-! # CSV field tokenizer: `src/mlio/csv_record_tokenizer.{h,cc}` -/

namespace Mlio

/-- The parameters copied by the constructor, `csv_record_tokenizer.h` 35-40. -/
structure TokParams where
  delimiter : UInt8 := 44
  quote : UInt8 := 34
  maxField : Option Nat := none
  deriving DecidableEq, Repr

/-- State of a `Csv_record_tokenizer`, `csv_record_tokenizer.h` 68-75: the characters from
`text_pos_` to the end of `text_`, and the flags. -/
structure Tok where
  text : Bytes
  value : Bytes := []
  truncated : Bool := false
  finished : Bool := false
  eof : Bool := false
  deriving DecidableEq, Repr

/-- `Parser_state`, `csv_record_tokenizer.h` 62. -/
inductive TState where
  | newField | inField | inQuoted | quoteInQuoted
  deriving DecidableEq, Repr

/-- `push_char`, `csv_record_tokenizer.cc` 134-142, on `(value_, truncated_)`. -/
def pushChar (p : TokParams) (v : Bytes × Bool) (c : UInt8) : Bytes × Bool :=
  match p.maxField with
  | some m => if v.1.length = m then (v.1, true) else (v.1 ++ [c], v.2)
  | none => (v.1 ++ [c], v.2)

/-- Where the label machine of `next` goes to: label `end_field` (with the remaining characters) or
label `end_line` (with the state). -/
inductive TScan where
  | endField (v : Bytes × Bool) (rest : Bytes)
  | endLine (v : Bytes × Bool) (st : TState)
  deriving DecidableEq, Repr

/-- The label machine of `Csv_record_tokenizer::next`, `csv_record_tokenizer.cc` 36-119. -/
def tokScan (p : TokParams) : TState → (Bytes × Bool) → Bytes → TScan
  | st, v, [] => .endLine v st
  | .newField, v, c :: cs =>
    if c = p.delimiter then .endField v cs
    else if c = p.quote then tokScan p .inQuoted v cs
    else tokScan p .inField (pushChar p v c) cs
  | .inField, v, c :: cs =>
    if c = p.delimiter then .endField v cs
    else tokScan p .inField (pushChar p v c) cs
  | .inQuoted, v, c :: cs =>
    if c = p.quote then tokScan p .quoteInQuoted v cs
    else tokScan p .inQuoted (pushChar p v c) cs
  | .quoteInQuoted, v, c :: cs =>
    if c = p.delimiter then .endField v cs
    else if c = p.quote then tokScan p .inQuoted (pushChar p v c) cs
    else tokScan p .inField (pushChar p v c) cs

/-- `Csv_record_tokenizer::next`, `csv_record_tokenizer.cc` 24-119. -/
def Tok.next (p : TokParams) (t : Tok) : Res Bool × Tok :=
  if t.finished then
    (.ok false, { t with value := [], truncated := false, eof := true })
  else
    match tokScan p .newField ([], false) t.text with
    | .endField v rest => (.ok true, { t with text := rest, value := v.1, truncated := v.2 })
    | .endLine v st =>
      match st with
      | .inQuoted => (.err .corruptRecord, { t with text := [], value := v.1, truncated := v.2 })
      | _ => (.ok true, { t with text := [], value := v.1, truncated := v.2, finished := true })

/-- `Csv_record_tokenizer::reset`, `csv_record_tokenizer.cc` 144-153. -/
def Tok.reset (t : Tok) (blob : Bytes) : Tok :=
  { t with text := blob, finished := false, eof := false }

/-- A fresh tokenizer, `csv_record_tokenizer.h` 31-40. -/
def Tok.init (blob : Bytes) : Tok := { text := blob }

/-- `while (tokenizer.next()) …` with at most `fuel` calls: the values (with their truncation flags) seen, and the
outcome of the last call. -/
def Tok.drain (p : TokParams) : (fuel : Nat) → Tok → List (Bytes × Bool) × Res Unit
  | 0, _ => ([], .err .diverges)
  | fuel + 1, t =>
    match t.next p with
    | (.ok true, t') =>
      let (vs, o) := Tok.drain p fuel t'
      ((t'.value, t'.truncated) :: vs, o)
    | (.ok false, _) => ([], .ok ())
    | (.err e, _) => ([], .err e)
    | (.ub w, _) => ([], .ub w)

/-- All fields of a row.  Every call but the last two consumes a character, so `length + 2` calls
are enough. -/
def tokenize (p : TokParams) (row : Bytes) : List (Bytes × Bool) × Res Unit :=
  Tok.drain p (row.length + 2) (Tok.init row)

end Mlio
