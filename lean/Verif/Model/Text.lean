import Verif.Model.StreamReader

/-!
# Text line and CSV row splitting

`src/mlio/record_readers/detail/text_line.cc`, `src/mlio/record_readers/text_record_reader.cc`,
`src/mlio/record_readers/text_line_record_reader.cc`,
`src/mlio/record_readers/csv_record_reader.{h,cc}`.

`char` is a byte here; all comparisons in this code are equality tests, so signedness
does not matter.
-/

namespace Mlio

abbrev LF : UInt8 := 10
abbrev CR : UInt8 := 13

/-- Where the scanning loop of `detail::read_line` stopped: `pos - chars.begin()`, `has_carriage`, and whether
`pos == chars.end()`. -/
structure LineScan where
  pos : Nat
  carriage : Bool
  atEnd : Bool
  deriving DecidableEq, Repr

/-- The scanning loop of `detail::read_line`, `text_line.cc` 46-68, as recursion over the characters
from `pos` on.  (The loop also reads `*chars.end()`, see `lineDerefs`; the value read there is
never used.) -/
def scanLine (pos : Nat) : Bytes → LineScan
  | [] => ⟨pos, false, true⟩
  | c :: cs =>
    if c = LF then ⟨pos, false, false⟩
    else if c = CR then
      match cs with
      | d :: _ => if d = LF then ⟨pos + 1, true, false⟩ else ⟨pos, false, false⟩
      | [] => ⟨pos, false, false⟩
    else scanLine (pos + 1) cs

/-- The offsets that the scanning loop dereferences, in order.  `for (auto chr = *pos; pos < chars.end();
++pos, chr = *pos)` (`text_line.cc` 50): the increment expression dereferences the new `pos` before
the loop condition is tested.  `len` is the size of the chunk and `pos` the current position,
whose character has been loaded already. -/
def lineDerefsFrom (pos : Nat) : Bytes → List Nat
  | [] => []
  | c :: cs =>
    if c = LF then []
    else if c = CR then
      match cs with
      | _ :: _ => [pos + 1]
      | [] => []
    else (pos + 1) :: lineDerefsFrom (pos + 1) cs

/-- All dereferenced offsets for a non-empty chunk: the initial `*pos` and those of the loop. -/
def lineDerefs (chunk : Bytes) : List Nat := 0 :: lineDerefsFrom 0 chunk

/-- `detail::read_line(chunk, ignore_leftover, max_line_length)`, `text_line.cc` 33-104.
Records are complete (`Record{payload}`, kind 0). -/
def readLine (chunk : Bytes) (ignoreLeftover : Bool) (maxLen : Option Nat) : Dec Record :=
  if chunk.isEmpty then
    if ignoreLeftover then .more chunk 0 else .fail .corruptRecord chunk
  else
    let sc := scanLine 0 chunk
    if (match maxLen with | some m => decide (sc.pos ≥ m) | none => false) then
      .fail .recordTooLarge chunk
    else if sc.atEnd && ignoreLeftover then .more chunk 0
    else
      match sliceFirst chunk (if sc.carriage then sc.pos - 1 else sc.pos) with
      | .err e => .fail e chunk
      | .ub w => .ub w
      | .ok payload =>
        if sc.atEnd then .got ⟨0, payload⟩ []
        else
          match subsliceFrom chunk (sc.pos + 1) with
          | .err e => .fail e chunk
          | .ub w => .ub w
          | .ok rest => .got ⟨0, payload⟩ rest

/-- The part of `Csv_params` (`include/mlio/csv_reader.h` 88-116) that the record reader uses. -/
structure CsvParams where
  delimiter : UInt8 := 44
  quote : UInt8 := 34
  comment : Option UInt8 := none
  quotedNewLines : Bool := false
  skipBlank : Bool := true
  maxLine : Option Nat := none
  deriving DecidableEq, Repr

/-- `Csv_record_reader::Parser_state`, `csv_record_reader.h` 37-43. -/
inductive QState where
  | newField | inField | inQuoted | quoteInQuoted | hasCarriage
  deriving DecidableEq, Repr

/-- Where the label machine of `Csv_record_reader::read_line` ends up: label `new_line` or label `end`,
with `pos - chars.begin()` and `state`. -/
inductive QScan where
  | newLine (pos : Nat) (st : QState)
  | fin (pos : Nat) (st : QState)
  deriving DecidableEq, Repr

/-- The label machine `new_field` … `has_carriage` of `Csv_record_reader::read_line`,
`csv_record_reader.cc` 92-187.  The first argument is the label about to be executed (which also is
the value then assigned to `state`), the list the characters from `pos` on. -/
def qScan (p : CsvParams) : QState → Nat → Bytes → QScan
  | st, pos, [] => .fin pos st
  | .newField, pos, c :: cs =>
    if c = p.delimiter then qScan p .newField (pos + 1) cs
    else if c = p.quote then qScan p .inQuoted (pos + 1) cs
    else if c = LF then .newLine (pos + 1) .newField
    else if c = CR then qScan p .hasCarriage (pos + 1) cs
    else qScan p .inField (pos + 1) cs
  | .inField, pos, c :: cs =>
    if c = p.delimiter then qScan p .newField (pos + 1) cs
    else if c = LF then .newLine (pos + 1) .inField
    else if c = CR then qScan p .hasCarriage (pos + 1) cs
    else qScan p .inField (pos + 1) cs
  | .inQuoted, pos, c :: cs =>
    if c = p.quote then qScan p .quoteInQuoted (pos + 1) cs
    else qScan p .inQuoted (pos + 1) cs
  | .quoteInQuoted, pos, c :: cs =>
    if c = p.delimiter then qScan p .newField (pos + 1) cs
    else if c = p.quote then qScan p .inQuoted (pos + 1) cs
    else if c = LF then .newLine (pos + 1) .quoteInQuoted
    else if c = CR then qScan p .hasCarriage (pos + 1) cs
    else qScan p .inField (pos + 1) cs
  | .hasCarriage, pos, c :: _ =>
    if c = LF then .newLine (pos + 1) .hasCarriage
    else .newLine pos .newField

/-- `check_line_length`, `csv_record_reader.cc` 255-264, guarded by `if (params_->max_line_length)`. -/
def tooLong (maxLen : Option Nat) (pos : Nat) : Bool :=
  match maxLen with
  | some m => decide (pos ≥ m)
  | none => false

/-- `Csv_record_reader::read_line`, `csv_record_reader.cc` 75-238. -/
def csvReadLine (p : CsvParams) (chunk : Bytes) (ignoreLeftover : Bool) : Dec Record :=
  if chunk.isEmpty then
    if ignoreLeftover then .more chunk 0 else .fail .corruptRecord chunk
  else
    match qScan p .newField 0 chunk with
    | .newLine pos st =>
      if tooLong p.maxLine pos then .fail .recordTooLarge chunk
      else
        match sliceFirst chunk (if st = .hasCarriage then pos - 2 else pos - 1) with
        | .err e => .fail e chunk
        | .ub w => .ub w
        | .ok payload =>
          match subsliceFrom chunk pos with
          | .err e => .fail e chunk
          | .ub w => .ub w
          | .ok rest => .got ⟨0, payload⟩ rest
    | .fin pos st =>
      if tooLong p.maxLine pos then .fail .recordTooLarge chunk
      else if ignoreLeftover then .more chunk 0
      else
        match st with
        | .newField | .inField | .quoteInQuoted => .got ⟨0, chunk⟩ []
        | .hasCarriage =>
          match sliceFirst chunk (chunk.length - 1) with
          | .err e => .fail e chunk
          | .ub w => .ub w
          | .ok payload => .got ⟨0, payload⟩ []
        | .inQuoted => .fail .corruptRecord chunk

/-- `Csv_record_reader::is_comment_line`, `csv_record_reader.cc` 65-73. -/
def isCommentLine (p : CsvParams) (chunk : Bytes) : Bool :=
  match p.comment, chunk with
  | some c, b :: _ => b == c
  | _, _ => false

/-- The row reader chosen at `csv_record_reader.cc` 45-50. -/
def rowReader (p : CsvParams) (chunk : Bytes) (ig : Bool) : Dec Record :=
  if p.quotedNewLines then csvReadLine p chunk ig else readLine chunk ig p.maxLine

/-- `Csv_record_reader::decode_text_record`, `csv_record_reader.cc` 34-63.  Each iteration consumes at
least one byte, so `chunk.length` iterations are enough. -/
def csvLoop (p : CsvParams) : (fuel : Nat) → Bytes → Bool → Dec Record
  | 0, chunk, _ => if chunk.isEmpty then .more chunk 0 else .fail .diverges chunk
  | fuel + 1, chunk, ig =>
    if chunk.isEmpty then .more chunk 0
    else if isCommentLine p chunk then
      match readLine chunk ig none with
      | .got _ rest => csvLoop p fuel rest ig
      | o => o
    else
      match rowReader p chunk ig with
      | .got r rest =>
        if !p.skipBlank || !r.payload.isEmpty then .got r rest else csvLoop p fuel rest ig
      | o => o

def csvDecodeText (p : CsvParams) (chunk : Bytes) (ig : Bool) : Dec Record :=
  csvLoop p chunk.length chunk ig

/-- `Text_line_record_reader::decode_text_record`, `text_line_record_reader.cc` 30-49: the loop
used when `skip_blank_` is set. -/
def textLoop : (fuel : Nat) → Bytes → Bool → Dec Record
  | 0, chunk, _ => if chunk.isEmpty then .more chunk 0 else .fail .diverges chunk
  | fuel + 1, chunk, ig =>
    if chunk.isEmpty then .more chunk 0
    else
      match readLine chunk ig none with
      | .got r rest => if !r.payload.isEmpty then .got r rest else textLoop fuel rest ig
      | o => o

def textDecodeText (skipBlank : Bool) (chunk : Bytes) (ig : Bool) : Dec Record :=
  if chunk.isEmpty then .more chunk 0
  else if skipBlank then textLoop chunk.length chunk ig
  else readLine chunk ig none

/-- `Text_record_reader::skip_utf8_bom`, `text_record_reader.cc` 45-59: the new chunk, or `none` for
`false`. -/
def skipBom (chunk : Bytes) (ig : Bool) : Option Bytes :=
  match chunk with
  | a :: b :: c :: rest =>
    if a = 0xEF ∧ b = 0xBB ∧ c = 0xBF then some rest else some chunk
  | _ => if ig then none else some chunk

/-- `Text_record_reader::decode_record`, `text_record_reader.cc` 32-43, over `decode_text_record`. -/
def textRecord (decodeText : Bytes → Bool → Dec Record) (chunk : Bytes) (ig : Bool) : Dec Record :=
  if chunk.isEmpty then .more chunk 0
  else
    match skipBom chunk ig with
    | some chunk' => decodeText chunk' ig
    | none => .more chunk 0

/-- Decoder of `Csv_record_reader`. -/
def csvDecode (p : CsvParams) : Bytes → Bool → Dec Record := textRecord (csvDecodeText p)

/-- Decoder of `Text_line_record_reader`. -/
def textDecode (skipBlank : Bool) : Bytes → Bool → Dec Record := textRecord (textDecodeText skipBlank)

end Mlio
