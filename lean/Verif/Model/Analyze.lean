import Verif.Model.Gil
import Verif.Model.Insights

/-!
# The call `analyze_dataset` from Python

`src/mlio-py/mlio/contrib/insights/module.cc` 41-86 and 169-177: a loop over all examples of a reader, inside one call from
Python.  The reader, its background thread and the lock of the interpreter are those of `Verif/Model/Gil.lean`; a
"message" of a body there is anything for which the body needs the lock: a message for the handler of Python, or a call of
`open_read` of a data store written in Python (`core/data_store.cc` 46-57).

`peek_example` and the first `read_example` are one read of the pipeline (`data_reader_base.cc` 36-58).
-/

namespace Mlio

/-- The moves of the background thread and its tasks. -/
def GAct.isBackground : GAct → Bool
  | .sys .cStep | .sys .cJoin => false
  | a => !a.isUser

section
variable {α ε ρ : Type} {m : Machine (Batch α)}

/-- The state during a call of `analyze_dataset`: the reader, the examples analyzed so far, and what the call returned or
threw, if it is over. -/
structure AState (m : Machine (Batch α)) (ε ρ : Type) where
  g : GState m ε
  seen : List ε := []
  result : Option (Res ρ) := none

/-- What can happen next: a move in the background; the wait of `read_example` goes on; the loop goes on with what
`read_example` returned. -/
inductive AAct where
  | bg (a : GAct)
  | wait
  | next
  deriving DecidableEq, Repr

/-- The call begins, `module.cc` 46.  `rel` says whether it gives the lock of the interpreter away. -/
def analyzeCall (rel : Bool) (g : GState m ε) : Option (AState m ε ρ) :=
  if g.held then (pCallRead g.p).map fun p => { g := { g with p := p, held := !rel } } else none

/-- The loop, `module.cc` 66-69, and what is made of the examples at the end, 71-86 (`fin`; the code keeps the statistics and
not the examples).  An exception leaves the loop. -/
def astep (L : Logs m) (P Q : Nat) (dec : Batch α → Except Err (Option ε)) (fin : List ε → Res ρ) (a : AAct)
    (s : AState m ε ρ) : Option (AState m ε ρ) :=
  match s.result with
  | some _ => none
  | none =>
    match a with
    | .bg a => if a.isBackground then (gstep resetReleases L P Q dec a s.g).map fun g => { s with g := g } else none
    | .wait => (pCStep s.g.p).map fun p => { s with g := { s.g with p := p } }
    | .next =>
      if s.g.p.consumer = .idle then
        match s.g.p.out.getLast? with
        | some (.ok (some e)) => (pCallRead s.g.p).map fun p => { s with g := { s.g with p := p }, seen := s.seen ++ [e] }
        | some (.ok none) => some { s with g := { s.g with held := true }, result := some (fin s.seen) }
        | some (.err e) => some { s with g := { s.g with held := true }, result := some (.err e) }
        | _ => none
      else none

/-- An execution. -/
def arun (L : Logs m) (P Q : Nat) (dec : Batch α → Except Err (Option ε)) (fin : List ε → Res ρ) :
    List AAct → AState m ε ρ → Option (AState m ε ρ)
  | [], s => some s
  | a :: as, s => (astep L P Q dec fin a s).bind (arun L P Q dec fin as)

end

/-- The binding has no `call_guard<gil_scoped_release>`, `module.cc` 169-177. -/
def analyzeReleases : Bool := false

end Mlio
