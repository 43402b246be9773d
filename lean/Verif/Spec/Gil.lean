import Verif.Model.Gil

/-! # What users of Python rely on: calls return -/

namespace Mlio.Spec

section
variable {α ε : Type} {m : Machine (Batch α)}

/-- The states that some execution of a new reader leads to. -/
def GReachable (rel : Bool) (L : Logs m) (P Q : Nat) (dec : Batch α → Except Err (Option ε)) (g : GState m ε) : Prop :=
  ∃ as, grun rel L P Q dec as (GState.init m ε) = some g

/-- The call that the user is in never returns, whatever happens. -/
def NeverReturns (rel : Bool) (L : Logs m) (P Q : Nat) (dec : Batch α → Except Err (Option ε)) (g : GState m ε) : Prop :=
  ∀ as g', grun rel L P Q dec as g = some g' → g'.p.consumer ≠ .idle

/-- Nothing can happen any more except what the user does. -/
def AtRest (rel : Bool) (L : Logs m) (P Q : Nat) (dec : Batch α → Except Err (Option ε)) (g : GState m ε) : Prop :=
  ∀ a, a.isUser = false → gstep rel L P Q dec a g = none

/-- A body that is running in the background is going to log something. -/
def WillLog (g : GState m ε) : Prop := (∃ k, g.srcBody = some (k + 1)) ∨ ∃ k, some (k + 1) ∈ g.bodies

end

end Mlio.Spec
