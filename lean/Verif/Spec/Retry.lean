import Verif.Spec.SchemaReader
import Verif.Spec.CoreReader

/-!
# What reading again after an error is meant to do
-/

namespace Mlio.Spec

/-- From the state `s` on: once a read has failed with `e`, all later reads fail with `e`. -/
def Sticky {α : Type} (m : Machine α) (s : m.σ) (e : Err) : Prop :=
  ∀ i j, i ≤ j → (m.outs (j + 1) s)[i]? = some (.err e) → (m.outs (j + 1) s)[j]? = some (.err e)

/-- The same for the end of the data. -/
def StaysAtEnd {α : Type} (m : Machine α) (s : m.σ) : Prop :=
  ∀ i j, i ≤ j → (m.outs (j + 1) s)[i]? = some (.ok none) → (m.outs (j + 1) s)[j]? = some (.ok none)

end Mlio.Spec
