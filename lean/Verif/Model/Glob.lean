import Verif.Model.FileTree

/-!
# Patterns of file names

`fnmatch` with no flags, which `file_list.cc` 115-118 and `s3_object.cc` 97-100 call, in place of the unknown function of
`Model/Stores.lean`.  It belongs to the C library and is not in the repository: the model was written from general knowledge of it,
and its results were compared with those of the C library of the sandbox (glibc) for 117778 random patterns and texts over fourteen
characters.  They differ in one respect: a pattern that ends in an unclosed bracket and a minus sign (`[a-`) matches nothing there, here
it is text (and so is `[[.`, which belongs to what is left out).  Characters are bytes (the `C` locale); left out are classes, equivalence classes and collating symbols (`[:`, `[=` and `[.`
in brackets).
-/

namespace Mlio

/-- A part of a pattern, as `fnmatch` reads it (`file_list.cc` 117): a character, `?`, `*`, or a set of ranges, perhaps negated. -/
inductive GlobTok where
  | lit (c : UInt8)
  | any
  | star
  | set (neg : Bool) (ranges : List (UInt8 × UInt8))
  deriving DecidableEq, Repr

/-- One character in brackets (`fnmatch` at `file_list.cc` 117), perhaps behind a backslash. -/
def bracketChar : Bytes → Option (UInt8 × Bytes)
  | [] => none
  | c :: r =>
    if c = 92 then
      match r with
      | [] => none
      | d :: r' => some (d, r')
    else some (c, r)

/-- The inside of brackets (`fnmatch` at `file_list.cc` 117) up to the closing one: characters and ranges; a minus sign in front of the
closing bracket is a character, and so is a closing bracket that comes first.  Nothing if there is no closing bracket. -/
def bracketItems : (fuel : Nat) → (first : Bool) → Bytes → Option (List (UInt8 × UInt8) × Bytes)
  | 0, _, _ => none
  | fuel + 1, first, p =>
    if p.head? = some 93 ∧ first = false then some ([], p.tail)
    else
      match bracketChar p with
      | none => none
      | some (a, r) =>
        if r.head? = some 45 ∧ r.tail.head? ≠ some 93 ∧ r.tail ≠ [] then
          match bracketChar r.tail with
          | none => none
          | some (b, r') =>
            match bracketItems fuel false r' with
            | none => none
            | some (is, rest) => some ((a, b) :: is, rest)
        else
          match bracketItems fuel false r with
          | none => none
          | some (is, rest) => some ((a, a) :: is, rest)

/-- What stands behind an opening bracket (`fnmatch` at `file_list.cc` 117). -/
def bracket (p : Bytes) : Option (GlobTok × Bytes) :=
  let neg := decide (p.head? = some 33 ∨ p.head? = some 94)
  match bracketItems (p.length + 1) true (if neg then p.tail else p) with
  | none => none
  | some (is, rest) => some (.set neg is, rest)

/-- The parts of a pattern (`fnmatch` at `file_list.cc` 117); nothing if it ends in a backslash, which matches no text.  An opening
bracket without a closing one stands for itself. -/
def globToks : (fuel : Nat) → Bytes → Option (List GlobTok)
  | 0, _ => none
  | _ + 1, [] => some []
  | fuel + 1, c :: r =>
    if c = 42 then (globToks fuel r).map (.star :: ·)
    else if c = 63 then (globToks fuel r).map (.any :: ·)
    else if c = 92 then
      match r with
      | [] => none
      | d :: r' => (globToks fuel r').map (.lit d :: ·)
    else if c = 91 then
      match bracket r with
      | none => (globToks fuel r).map (.lit 91 :: ·)
      | some (t, r') => (globToks fuel r').map (t :: ·)
    else (globToks fuel r).map (.lit c :: ·)

/-- A character is in a set (`fnmatch` at `file_list.cc` 117). -/
def inRanges (c : UInt8) (is : List (UInt8 × UInt8)) : Bool := is.any fun i => decide (i.1 ≤ c) && decide (c ≤ i.2)

/-- The comparison of the whole text with the parts (`fnmatch` at `file_list.cc` 117).  No flags: slashes and leading periods are
characters like any other. -/
def globMatch : List GlobTok → Bytes → Bool
  | [], s => s.isEmpty
  | .lit c :: ts, x :: s => x == c && globMatch ts s
  | .any :: ts, _ :: s => globMatch ts s
  | .set neg is :: ts, x :: s => (inRanges x is != neg) && globMatch ts s
  | .star :: ts, [] => globMatch ts []
  | .star :: ts, x :: s => globMatch ts (x :: s) || globMatch (.star :: ts) s
  | _ :: _, [] => false
termination_by ts s => (ts.length, s.length)

/-- `fnmatch`, `file_list.cc` 117 and `s3_object.cc` 99.  (It can fail only on texts that are no characters of the locale; every byte
is one here, so that `file_list.cc` 121-123 is not reached.) -/
def fnmatch (pattern text : Bytes) : Option Bool :=
  match globToks ((cstr pattern).length + 1) (cstr pattern) with
  | none => some false
  | some ts => some (globMatch ts (cstr text))

/-- The filter of a listing with a pattern, `file_list.cc` 93 and 116-117, `s3_object.cc` 98-99: the empty pattern is none. -/
def patternOf (pattern : Bytes) : Option (Bytes → Option Bool) := if pattern.isEmpty then none else some (fnmatch pattern)

end Mlio
