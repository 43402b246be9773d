import Verif.Model.Number
import Verif.Model.Slice

/-!
# Tensors: `src/mlio/tensor.cc`

`std::size_t` values are natural numbers below `2 ^ 64`, with arithmetic modulo `2 ^ 64`; `std::ptrdiff_t` values are
integers, and an operation whose result does not fit is undefined behaviour.  Of a data array (`Device_array`) only
the data type and the number of elements matter for construction.
-/

namespace Mlio

/-- `as_size`, `include/mlio/util/cast.h` 45-49. -/
def asSize (d : Int) : Nat := (d % 2 ^ 64).toNat

/-- The value of a signed operation. -/
def ssizeRes (i : Int) : Res Int :=
  if -2 ^ 63 ≤ i ∧ i < 2 ^ 63 then .ok i else .ub "signed overflow"

/-- `Tensor::default_strides`, `src/mlio/tensor.cc` 57-71: the loop runs from the last dimension to the first and
multiplies the stride to the right by the dimension to the right. -/
def defaultStrides : List Nat → Res (List Int)
  | [] => .ok []
  | [_] => .ok [1]
  | _ :: d :: ds =>
    match defaultStrides (d :: ds) with
    | .ok (s :: ss) =>
      match ssizeRes (s * asSsize d) with
      | .ok t => .ok (t :: s :: ss)
      | .err e => .err e
      | .ub w => .ub w
    | r => r

/-- `Tensor::Tensor`, `tensor.cc` 45-55, and the same code in `Attribute::Attribute`, `src/mlio/schema.cc` 44-50: the
strides. -/
def tensorStrides (shape : List Nat) (strides : List Int) : Res (List Int) :=
  if strides.isEmpty then defaultStrides shape
  else if strides.length ≠ shape.length then .err .invalidArgument
  else .ok strides

/-- The loop of `validate_data_size`, `tensor.cc` 104-109. -/
def lastIndex : List Nat → List Int → (acc : Nat) → Res Nat
  | d :: ds, s :: ss, acc =>
    if s = -2 ^ 63 then .ub "abs of the smallest value"
    else lastIndex ds ss ((acc + (d + (2 ^ 64 - 1)) % 2 ^ 64 * asSize s.natAbs) % 2 ^ 64)
  | _, _, acc => .ok acc

/-- `Dense_tensor::validate_data_size`, `tensor.cc` 96-116. -/
def validateDataSize (shape : List Nat) (strides : List Int) (size : Nat) : Res Unit :=
  if shape.isEmpty then .ok ()
  else
    match lastIndex shape strides 0 with
    | .ok last => if (last + 1) % 2 ^ 64 > size then .err .invalidArgument else .ok ()
    | .err e => .err e
    | .ub w => .ub w

/-- A tensor as far as construction is concerned. -/
structure TensorInfo where
  shape : List Nat
  strides : List Int
  size : Nat
  deriving DecidableEq, Repr

/-- `Dense_tensor::Dense_tensor`, `tensor.cc` 73-79, for a data array with `size` elements. -/
def denseTensor (shape : List Nat) (strides : List Int) (size : Nat) : Res TensorInfo :=
  match tensorStrides shape strides with
  | .ok ss =>
    match validateDataSize shape ss size with
    | .ok () => .ok ⟨shape, ss, size⟩
    | .err e => .err e
    | .ub w => .ub w
  | .err e => .err e
  | .ub w => .ub w

/-- `Coo_tensor::Coo_tensor`, `tensor.cc` 118-136, for arrays with the given sizes. -/
def cooTensor (shape : List Nat) (size : Nat) (coords : List Nat) : Res TensorInfo :=
  match tensorStrides shape [] with
  | .ok ss =>
    if shape.length ≠ coords.length then .err .invalidArgument
    else if coords.any (fun c => c ≠ size) then .err .invalidArgument
    else .ok ⟨shape, ss, size⟩
  | .err e => .err e
  | .ub w => .ub w

/-- `Csr_tensor::Csr_tensor`, `tensor.cc` 153-188.  Arguments are sizes; `none` is a null pointer.  The parameter
`indptr` is moved into the member (160) before `indptr->size()` is evaluated (184), so it is null there. -/
def csrTensor (shape : List Nat) (size indices : Nat) (_indptr : Nat) : Res TensorInfo :=
  match tensorStrides shape [] with
  | .ok ss =>
    let indptr : Option Nat := none
    if shape.length > 2 then .err .invalidArgument
    else if size ≠ indices then .err .invalidArgument
    else
      let numRows := match shape with
        | [] => 0
        | [_] => 1
        | r :: _ => r
      match indptr with
      | none => .ub "null pointer dereferenced"
      | some n => if n ≠ numRows + 1 then .err .invalidArgument else .ok ⟨shape, ss, size⟩
  | .err e => .err e
  | .ub w => .ub w

end Mlio
