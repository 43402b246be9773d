import Verif.Model.Pandas
import Verif.Spec.Exchange
import Verif.Spec.PyError

/-!
# What a feature is in Python
-/

namespace Mlio.Spec

/-- The cell is what the feature has at the multi-index. -/
inductive CellOf : PyFeature → List Nat → PyCell → Prop
  | number (t : DenseT) (idx : List Nat) (b : Bytes) (h : tensorElement t idx = some b) : CellOf (.dense t) idx (.raw b)
  | text (info : TensorInfo) (strings : List Bytes) (idx : List Nat) (k : Nat) (b : Bytes) (s : String)
      (ho : offset idx info.strides = k) (hb : strings[k]? = some b) (hs : IsText b s) :
      CellOf (.text info strings) idx (.str s)

/-- The shape of a dense feature. -/
def featureShape : PyFeature → Option (List Nat)
  | .dense t => some t.info.shape
  | .text info _ => some info.shape
  | .sparse => none

/-- The feature has the given shape, row-major strides and as many elements as it needs, and its strings are text. -/
def FeatureOk (shape : List Nat) : PyFeature → Prop
  | .dense t => t.info.shape = shape ∧ t.info.strides = rowMajor shape ∧ numElements shape ≤ t.arr.elems.length
  | .text info strings => info.shape = shape ∧ info.strides = rowMajor shape ∧ numElements shape ≤ strings.length ∧
      ∀ b ∈ strings, ∃ s, IsText b s
  | .sparse => False

/-- The column of a feature: its elements in row-major order. -/
def IsFrameColumn (f : PyFeature) (shape : List Nat) (c : List PyCell) : Prop :=
  c.length = numElements shape ∧
  ∀ idx, InShape idx shape → ∃ (p : Nat) (x : PyCell), offset idx (rowMajor shape) = p ∧ c[p]? = some x ∧ CellOf f idx x

/-- One value for each of `n` instances: a vector of size `n`, or a matrix with one column. -/
def OnePerRow (n : Nat) (shape : List Nat) : Prop := shape = [n] ∨ shape = [n, 1]

/-- The multi-index of the value of an instance. -/
def rowIndex (shape : List Nat) (i : Nat) : List Nat := if shape.length = 1 then [i] else [i, 0]

end Mlio.Spec
