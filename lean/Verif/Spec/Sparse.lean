import Verif.Model.Sparse
import Verif.Spec.Exchange

/-!
# What a sparse tensor is in other libraries
-/

namespace Mlio.Spec

variable {V : Type}

/-- The entries of a sparse tensor: the coordinates and the value of each. -/
def tensorEntries (t : CooT V) : List (List Nat × V) :=
  t.data.zipIdx.map fun x => (t.coords.map fun c => c.getD x.2 0, x.1)

/-- The entries of a SciPy matrix. -/
def matrixEntries (m : CooMatrix V) : List (List Int × V) :=
  (m.row.zip (m.col.zip m.data)).map fun e => ([e.1, e.2.1], e.2.2)

/-- The entries of a sparse tensor of TensorFlow. -/
def tfEntries (t : TfSparse V) : List (List Int × V) := (t.indices.zip t.values).map fun e => ([(e.1.1 : Int), e.1.2], e.2)

/-- The tensor is a valid one: a coordinate vector for each dimension, each as long as the data, and all entries are in
the tensor. -/
structure CooOk (t : CooT V) : Prop where
  rank : t.coords.length = t.shape.length
  size : ∀ c ∈ t.coords, c.length = t.data.length
  range : ∀ e ∈ tensorEntries t, InShape e.1 t.shape
  dims : ∀ d ∈ t.shape, d < 2 ^ 63

/-- The values at one position, in order.  What the tensor has there is their sum. -/
def valuesAt (t : CooT V) (idx : List Nat) : List V :=
  ((tensorEntries t).filter fun e => decide (e.1 = idx)).map Prod.snd

/-- `x` is the sum of the values `vs`, added in some order; there must be at least one. -/
def SumsTo (add : V → V → V) (vs : List V) (x : V) : Prop :=
  ∃ w ws, (w :: ws).Perm vs ∧ x = ws.foldl add w

/-- A correct sorting by column. -/
def SortsColumns (sort : List (Int × V) → List (Int × V)) : Prop :=
  ∀ l, (sort l).Perm l ∧ (sort l).Pairwise fun a b => a.1 ≤ b.1

/-- A position comes before another one in row-major order. -/
def Before (a b : Nat × Int) : Prop := a.1 < b.1 ∨ (a.1 = b.1 ∧ a.2 < b.2)

end Mlio.Spec
