import Verif.Model.Insights
import Verif.Spec.Hll
import Verif.Spec.ParserOptions

/-!
# What column statistics are meant to be
-/

namespace Mlio.Spec

/-- A cell with nothing but white space, or nothing at all. -/
def Blank (c : Bytes) : Bool := decide (White c)

/-- The finite numbers of a column. -/
def numbers (t : CellTools) (cells : List Bytes) : List Rat :=
  (cells.filter (fun c => !Blank c)).filterMap (fun c => match t.parse c with
    | .fin q => some q
    | _ => none)

/-- The smallest of some numbers, NaN if there is none. -/
def IsLeast (l : List Rat) : Option Rat → Prop
  | none => l = []
  | some m => m ∈ l ∧ ∀ x ∈ l, m ≤ x

/-- The greatest of some numbers, NaN if there is none. -/
def IsGreatest (l : List Rat) : Option Rat → Prop
  | none => l = []
  | some m => m ∈ l ∧ ∀ x ∈ l, x ≤ m

/-- The smallest of some lengths, `z` if there is none. -/
def IsShortest (z : Nat) (ls : List Nat) (m : Nat) : Prop := (ls = [] ∧ m = z) ∨ (m ∈ ls ∧ ∀ x ∈ ls, m ≤ x)

/-- The greatest of some lengths, zero if there is none. -/
def IsLongest (ls : List Nat) (m : Nat) : Prop := (ls = [] ∧ m = 0) ∨ (m ∈ ls ∧ ∀ x ∈ ls, x ≤ m)

/-- The words of a cell: a blank follows each of them, but not necessarily the last one. -/
def IsWords (cell : Bytes) (ws : List Bytes) : Prop :=
  (∀ w ∈ ws, (32 : UInt8) ∉ w) ∧
  (cell = (ws.map (· ++ [32])).flatten ∨
    ∃ init last, ws = init ++ [last] ∧ last ≠ [] ∧ cell = (init.map (· ++ [32])).flatten ++ last)

/-- The same character, or the same letter once as a capital (65 is `A`) and once not (97 is `a`). -/
def SameLetter (a b : UInt8) : Prop :=
  a = b ∨ ∃ k, k < 26 ∧ (a.toNat = 65 + k ∧ b.toNat = 97 + k ∨ a.toNat = 97 + k ∧ b.toNat = 65 + k)

/-- Equal but for the case of letters. -/
def SameButCase : Bytes → Bytes → Prop
  | [], [] => True
  | a :: s, b :: t => SameLetter a b ∧ SameButCase s t
  | _, _ => False

/-- The cell says that there is no value, perhaps with white space around it. -/
def NullLike (nulls : List Bytes) (cell : Bytes) : Prop := ∃ n ∈ nulls, ∃ w, StrippedOf w cell ∧ SameButCase n w

/-- How many elements have a property. -/
inductive CountIs (p : Bytes → Prop) : List Bytes → Nat → Prop
  | nil : CountIs p [] 0
  | yes (c : Bytes) (cs : List Bytes) (n : Nat) : p c → CountIs p cs n → CountIs p (c :: cs) (n + 1)
  | no (c : Bytes) (cs : List Bytes) (n : Nat) : ¬ p c → CountIs p cs n → CountIs p (c :: cs) n

/-- The statistics of a column, `z` being what stands for the shortest length if there is none. -/
structure IsColumn (t : CellTools) (nulls : List Bytes) (z : Nat) (cells : List Bytes) (s : ColCore) : Prop where
  rows : s.rows = cells.length
  empty : CountIs (fun c => c = []) cells s.emptyCount
  blank : CountIs (fun c => c ≠ [] ∧ Blank c) cells s.blankCount
  null : CountIs (fun c => ¬ Blank c ∧ NullLike nulls c) cells s.nullCount
  nan : CountIs (fun c => ¬ Blank c ∧ t.parse c = .bad) cells s.nanCount
  num : CountIs (fun c => ¬ Blank c ∧ t.parse c ≠ .bad) cells s.numCount
  fin : s.finCount = (numbers t cells).length
  int : s.intCount = ((numbers t cells).filter t.isInt).length
  least : IsLeast (numbers t cells) s.finMin
  greatest : IsGreatest (numbers t cells) s.finMax
  shortest : IsShortest z ((cells.filter (fun c => !c.isEmpty)).map List.length) s.minLenNotEmpty
  longest : IsLongest ((cells.filter (fun c => !c.isEmpty)).map List.length) s.maxLen
  first : s.exampleValue = cells.headD []
  sample : s.sample = (numbers t cells).take 10000
  words : ∃ wss : List (List Bytes), wss.length = cells.length ∧ (∀ p ∈ cells.zip wss, IsWords p.1 p.2) ∧
    s.words = (wss.map List.length).sum ∧ IsSketch 16 (fun h => ∃ ws ∈ wss, ∃ w ∈ ws, h = t.hash w) s.vocab
  card : IsSketch 16 (fun h => ∃ c ∈ cells, c ≠ [] ∧ h = t.hash c) s.card

/-- The captured values: all of them, or as many as allowed if there are more; and no count is too high. -/
structure IsCapture (limit : Nat) (vals : List Bytes) (s : ColCore) : Prop where
  nodup : (s.captured.map (·.1)).Nodup
  sub : ∀ k ∈ s.captured, 1 ≤ k.2 ∧ k.2 ≤ vals.count k.1
  size : s.captured.length ≤ limit
  all : s.overflowed = false → ∀ v ∈ vals, v ∈ s.captured.map (·.1)
  over : s.overflowed = true → s.captured.length = limit ∧ ∃ v ∈ vals, v ∉ s.captured.map (·.1)
  exact : s.captured.length < limit → ∀ k ∈ s.captured, k.2 = vals.count k.1

/-- The rows of a column of all examples, without the padding. -/
def wholeColumn (j : Nat) (es : List TextExample) : List Bytes :=
  es.flatMap (fun e => let c := e.columns.getD j []; c.take (c.length - e.padding))

/-- Examples with `n` columns. -/
def Examples (n : Nat) (es : List TextExample) : Prop := es ≠ [] ∧ ∀ e ∈ es, e.columns.length = n

/-- Cells that exist in a memory of 64 bit addresses, and 32 bit hashes. -/
def FitCells (t : CellTools) (es : List TextExample) : Prop :=
  (∀ e ∈ es, ∀ col ∈ e.columns, ∀ c ∈ col, c.length < 2 ^ 64 - 1) ∧ ∀ c, t.hash c < 2 ^ 32

end Mlio.Spec
