import Verif.Basic

/-!
# Elements of a strided tensor
-/

namespace Mlio.Spec

/-- `idx` is a multi-index of a tensor with the given shape. -/
def InShape : List Nat → List Nat → Prop
  | [], [] => True
  | i :: is, d :: ds => i < d ∧ InShape is ds
  | _, _ => False

instance : ∀ (is ds : List Nat), Decidable (InShape is ds)
  | [], [] => .isTrue trivial
  | _ :: is, _ :: ds => by unfold InShape; exact @instDecidableAnd _ _ _ (instDecidableInShape is ds)
  | [], _ :: _ => .isFalse id
  | _ :: _, [] => .isFalse id

/-- The position of the element in the data. -/
def offset : List Nat → List Int → Int
  | i :: is, s :: ss => i * s + offset is ss
  | _, _ => 0

/-- The number of elements: the product of the dimensions. -/
def numElements : List Nat → Nat
  | [] => 1
  | d :: ds => d * numElements ds

/-- The distance from the first to the last element of the data that is used, as an exact number. -/
def extent : List Nat → List Int → Nat
  | d :: ds, s :: ss => (d - 1) * s.natAbs + extent ds ss
  | _, _ => 0

/-- Row-major strides: the stride of a dimension is the number of elements of the dimensions to its right. -/
def rowMajor : List Nat → List Int
  | [] => []
  | _ :: ds => (numElements ds : Nat) :: rowMajor ds

/-- All strides of the tensor can be represented: every product of trailing dimensions, without the first one,
is below `2 ^ 63`. -/
def StridesFit : List Nat → Prop
  | [] => True
  | [_] => True
  | _ :: d :: ds => numElements (d :: ds) < 2 ^ 63 ∧ StridesFit (d :: ds)

instance : ∀ (ds : List Nat), Decidable (StridesFit ds)
  | [] => .isTrue trivial
  | [_] => .isTrue trivial
  | _ :: d :: ds => @instDecidableAnd _ _ _ (instDecidableStridesFit (d :: ds))

end Mlio.Spec
