import Verif.Model.Races

/-!
# What a data race is

Two threads can both make their next move, both use the same member, at least one writes it, and neither the
mutex nor atomic operations order the two uses.
-/

namespace Mlio.Spec

/-- Both uses are of the same member, not both reads, and not ordered. -/
def Conflict (x y : Access) : Prop :=
  x.member = y.member ∧ (x.write = true ∨ y.write = true) ∧ ¬ (x.locked = true ∧ y.locked = true) ∧
    ¬ (x.atomic = true ∧ y.atomic = true)

section
variable {α ε S ι : Type} {b : Nat} {l : LastHandling} {r : Machine α}

/-- There is a data race on `x` in this state. -/
def Race (P Q : Nat) (size : α → Nat) (dec : Batch α → Except Err (Option ε)) (infer : Infer α S ι) (w : WState b l r ε S ι)
    (m : Member) : Prop :=
  ∃ a a' : WAct, a.thread ≠ a'.thread ∧ (wstep P Q size dec infer a w).isSome = true ∧
    (wstep P Q size dec infer a' w).isSome = true ∧
    ∃ x ∈ accesses w a, ∃ y ∈ accesses w a', x.member = m ∧ Conflict x y

end

end Mlio.Spec
