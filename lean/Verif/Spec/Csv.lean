import Verif.Basic

/-!
# CSV text, written down independently of the readers
-/

namespace Mlio.Spec

/-- The three line terminators. -/
inductive Term where
  | lf | crlf | cr
  deriving DecidableEq, Repr

def Term.bytes : Term → Bytes
  | .lf => [10]
  | .crlf => [13, 10]
  | .cr => [13]

/-- A byte string without LF and CR. -/
def Plain (b : Bytes) : Prop := ∀ c ∈ b, c ≠ 10 ∧ c ≠ 13

/-- A text: terminated lines and what follows the last terminator. -/
structure Text where
  lines : List (Bytes × Term)
  last : Bytes
  deriving DecidableEq, Repr

def Text.bytes (t : Text) : Bytes := t.lines.flatMap (fun l => l.1 ++ l.2.bytes) ++ t.last

/-- A terminator CR is not followed by LF (that would be the terminator CRLF). -/
def Unambiguous : List (Bytes × Term) → Prop
  | (_, .cr) :: (b', t') :: ls => (b' ≠ [] ∨ t' ≠ .lf) ∧ Unambiguous ((b', t') :: ls)
  | _ :: ls => Unambiguous ls
  | [] => True

structure Text.Valid (t : Text) : Prop where
  plain : ∀ l ∈ t.lines, Plain l.1
  plainLast : Plain t.last
  unambiguous : Unambiguous t.lines

/-- The lines of a text: everything between terminators; what follows the last terminator counts
only if it is not empty. -/
def Text.content (t : Text) : List Bytes :=
  t.lines.map Prod.fst ++ (if t.last = [] then [] else [t.last])

/-- The UTF-8 byte order mark. -/
def utf8Bom : Bytes := [0xEF, 0xBB, 0xBF]

/-- There is no byte order mark at the start of the text or directly behind a line feed or a carriage return.
(It may stand anywhere else.) -/
def NoLineMark (x : Bytes) : Prop :=
  ¬ utf8Bom <+: x ∧ ¬ (10 :: utf8Bom) <:+: x ∧ ¬ (13 :: utf8Bom) <:+: x

/-- A CSV field as written: its value and whether it is written in quotes. -/
structure Field where
  value : Bytes
  quoted : Bool
  deriving DecidableEq, Repr

/-- Doubling of quotes. -/
def escape (q : UInt8) : Bytes → Bytes
  | [] => []
  | c :: cs => if c = q then q :: q :: escape q cs else c :: escape q cs

def Field.bytes (q : UInt8) (f : Field) : Bytes :=
  if f.quoted then q :: escape q f.value ++ [q] else f.value

/-- An unquoted field must not contain the delimiter nor start with the quote. -/
def Field.Ok (d q : UInt8) (f : Field) : Prop :=
  f.quoted = true ∨ (d ∉ f.value ∧ f.value.head? ≠ some q)

/-- A CSV row: fields joined by the delimiter. -/
def rowBytes (d q : UInt8) : List Field → Bytes
  | [] => []
  | [f] => f.bytes q
  | f :: fs => f.bytes q ++ d :: rowBytes d q fs

end Mlio.Spec

namespace Mlio.Spec

/-- Is this line a row of the table?  Comment lines are not, and blank lines are not if they are to be
skipped. -/
def isRow (comment : Option UInt8) (skipBlank : Bool) (line : Bytes) : Bool :=
  !(comment.isSome && line.head? == comment) && !(skipBlank && line.isEmpty)

end Mlio.Spec

namespace Mlio.Spec

/-- A field may contain line breaks only if it is written in quotes. -/
def Field.NoBreak (f : Field) : Prop := f.quoted = true ∨ Plain f.value

/-- A CSV table as written to a file: rows with their terminators and a last row without terminator
(no fields: there is none). -/
structure Table where
  rows : List (List Field × Term)
  last : List Field
  deriving DecidableEq, Repr

def Table.text (d q : UInt8) (t : Table) : Text :=
  ⟨t.rows.map (fun r => (rowBytes d q r.1, r.2)), rowBytes d q t.last⟩

def Table.bytes (d q : UInt8) (t : Table) : Bytes := (t.text d q).bytes

/-- The values in the table. -/
def Table.values (t : Table) : List (List Bytes) :=
  t.rows.map (fun r => r.1.map Field.value) ++
    (if t.last = [] then [] else [t.last.map Field.value])

/-- A table that can be written: rows have at least one field, fields are written by the quoting
rule, a row ended by CR is not followed by an empty row ended by LF, and a last row without terminator is
not written as nothing. -/
structure Table.Valid (d q : UInt8) (t : Table) : Prop where
  nonempty : ∀ r ∈ t.rows, r.1 ≠ []
  nonemptyLast : t.last ≠ [] → rowBytes d q t.last ≠ []
  fields : ∀ r ∈ t.rows, ∀ f ∈ r.1, f.Ok d q ∧ f.NoBreak
  fieldsLast : ∀ f ∈ t.last, f.Ok d q ∧ f.NoBreak
  unambiguous : Unambiguous (t.text d q).lines

end Mlio.Spec

namespace Mlio.Spec

/-- A line of a CSV file as a user writes it: a row of fields, or a line that is none (a comment or a blank line). -/
inductive SheetLine where
  | row (fields : List Field)
  | other (bytes : Bytes)
  deriving DecidableEq, Repr

/-- The fields of the line, if it is a row. -/
def SheetLine.fields? : SheetLine → Option (List Field)
  | .row fs => some fs
  | .other _ => none

def SheetLine.bytes (d q : UInt8) : SheetLine → Bytes
  | .row fs => rowBytes d q fs
  | .other b => b

/-- A CSV file: lines with their terminators and what follows the last terminator (`.other []`: nothing). -/
structure Sheet where
  lines : List (SheetLine × Term)
  last : SheetLine
  deriving DecidableEq, Repr

def Sheet.text (d q : UInt8) (s : Sheet) : Text :=
  ⟨s.lines.map (fun l => (l.1.bytes d q, l.2)), s.last.bytes d q⟩

def Sheet.bytes (d q : UInt8) (s : Sheet) : Bytes := (s.text d q).bytes

/-- All lines, with or without terminator. -/
def Sheet.all (s : Sheet) : List SheetLine := s.lines.map Prod.fst ++ [s.last]

/-- The rows, without comments and blank lines. -/
def Sheet.rows (s : Sheet) : List (List Field) :=
  s.all.filterMap SheetLine.fields?

/-- The values in the rows. -/
def Sheet.values (s : Sheet) : List (List Bytes) := s.rows.map fun fs => fs.map Field.value

/-- A field of a row when fields are cut to at most so many bytes: what is left, and whether something was cut off. -/
def cutField (limit : Option Nat) (v : Bytes) : Bytes × Bool :=
  match limit with
  | none => (v, false)
  | some m => (v.take m, decide (m < v.length))

end Mlio.Spec
