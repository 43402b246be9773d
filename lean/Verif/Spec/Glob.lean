import Verif.Spec.FileTree

/-!
# What patterns mean

Written without reference to the model of `fnmatch`.
-/

namespace Mlio.Spec

/-- A character of a pattern, written as it is or behind a backslash. -/
structure PatChar where
  c : UInt8
  escaped : Bool
  deriving DecidableEq, Repr

def PatChar.bytes (x : PatChar) : Bytes := if x.escaped then [92, x.c] else [x.c]

/-- A part of a pattern: a character, `?`, `*`, or `[…]` and `[!…]` with characters and ranges. -/
inductive PatPart where
  | char (x : PatChar)
  | any
  | star
  | set (neg : Bool) (items : List (PatChar × Option PatChar))
  deriving DecidableEq, Repr

/-- `a` or `a-b`. -/
def itemBytes : PatChar × Option PatChar → Bytes
  | (a, none) => a.bytes
  | (a, some b) => a.bytes ++ [45] ++ b.bytes

def PatPart.bytes : PatPart → Bytes
  | .char x => x.bytes
  | .any => [63]
  | .star => [42]
  | .set neg items => [91] ++ (if neg then [33] else []) ++ items.flatMap itemBytes ++ [93]

/-- The text of a pattern. -/
def patText (g : List PatPart) : Bytes := g.flatMap PatPart.bytes

/-- A character may be written as it is, if it is none of the given special ones. -/
def PatChar.Ok (special : List UInt8) (x : PatChar) : Prop := x.c ≠ 0 ∧ (x.escaped = true ∨ x.c ∉ special)

/-- Outside of brackets `*?[\` are special, inside `]\-!^[`; brackets are not empty. -/
def PatPart.Ok : PatPart → Prop
  | .char x => x.Ok [42, 63, 91, 92]
  | .any => True
  | .star => True
  | .set _ items => items ≠ [] ∧ ∀ i ∈ items, i.1.Ok [93, 92, 45, 33, 94, 91] ∧ ∀ b, i.2 = some b → b.Ok [93, 92, 45, 33, 94, 91]

/-- A character is that of an item, or in its range. -/
def InItem (x : UInt8) : PatChar × Option PatChar → Prop
  | (a, none) => x = a.c
  | (a, some b) => a.c ≤ x ∧ x ≤ b.c

/-- What a part of a pattern stands for. -/
inductive Stands : PatPart → Bytes → Prop
  | char (x : PatChar) : Stands (.char x) [x.c]
  | any (c : UInt8) : Stands .any [c]
  | star (s : Bytes) : Stands .star s
  | among (items : List (PatChar × Option PatChar)) (c : UInt8) : (∃ i ∈ items, InItem c i) → Stands (.set false items) [c]
  | outside (items : List (PatChar × Option PatChar)) (c : UInt8) : (¬ ∃ i ∈ items, InItem c i) → Stands (.set true items) [c]

/-- A text matches a pattern: it is made of texts the parts stand for, one after the other. -/
inductive MatchesPat : List PatPart → Bytes → Prop
  | nil : MatchesPat [] []
  | cons (t : PatPart) (g : List PatPart) (a b : Bytes) : Stands t a → MatchesPat g b → MatchesPat (t :: g) (a ++ b)

/-- The name of the file at a path: what stands behind the last slash. -/
def NameOf (path name : Bytes) : Prop := 47 ∉ name ∧ (path = name ∨ ∃ dir, path = dir ++ [47] ++ name)

/-- A part that stands for single characters other than the slash. -/
def NoSlash (t : PatPart) : Prop := ∀ s, Stands t s → ∃ c, s = [c] ∧ c ≠ 47

/-- Those of a list that satisfy a condition, in the order of the list. -/
def SelectedBy (P : Bytes → Prop) (us vs : List Bytes) : Prop := ∃ f : Bytes → Bool, vs = us.filter f ∧ ∀ u ∈ us, f u = true ↔ P u

end Mlio.Spec
