import Verif.Model.SizeHint

/-! # Specification: the expected size of records, for C117 -/

namespace Mlio.Spec

/-- The records, or ends, or errors, that a program was given. -/
def recordsOf {ρ : Type} (os : List (HintOut ρ)) : List (Res (Option ρ)) := os.filterMap fun
  | .record o => some o
  | .size _ => none

/-- The number of calls that read. -/
def readsIn (as : List HintAct) : Nat := (as.filter fun | .read => true | _ => false).length

/-- Nobody asks for more than the half of what can be numbered. -/
def HintsFit (as : List HintAct) : Prop := ∀ v, HintAct.hint v ∈ as → v ≤ 2 ^ 63

end Mlio.Spec
