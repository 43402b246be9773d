import Verif.Model.Exchange
import Verif.Spec.Tensor

/-!
# What exchanged arrays are meant to be
-/

namespace Mlio.Spec

/-- What elements are. -/
inductive Kind where
  | unsigned | signed | float | text
  deriving DecidableEq

/-- What the elements of a data type are. -/
def kindOf : DataType → Kind
  | .size | .uint8 | .uint16 | .uint32 | .uint64 => .unsigned
  | .int8 | .int16 | .int32 | .int64 => .signed
  | .float16 | .float32 | .float64 => .float
  | .string => .text

/-- What a character means in a format string, according to the documentation of Python's `struct` module (`O` are
objects). -/
def pyKind : Char → Option Kind
  | 'b' | 'h' | 'i' | 'l' | 'q' | 'n' => some .signed
  | 'B' | 'H' | 'I' | 'L' | 'Q' | 'N' => some .unsigned
  | 'e' | 'f' | 'd' => some .float
  | 'O' => some .text
  | _ => none

/-- What a format string means: one such character in the byte order of the machine. -/
def FormatMeans (fmt : List Char) (k : Kind) : Prop :=
  ∃ c, (fmt = [c] ∨ fmt = ['@', c] ∨ fmt = ['=', c]) ∧ pyKind c = some k

/-- The size of an element on a 64 bit machine with the usual C types. -/
def nativeSize : Char → Nat
  | 'b' | 'B' => 1
  | 'h' | 'H' | 'e' => 2
  | 'i' | 'I' | 'f' => 4
  | _ => 8

/-- The element of a Python array. -/
def pyElement (b : PyBuf) (idx : List Nat) : Bytes := (b.mem.drop (b.ptr + offset idx b.strides).toNat).take b.item

/-- The element of a tensor. -/
def tensorElement (t : DenseT) (idx : List Nat) : Option Bytes :=
  if 0 ≤ offset idx t.info.strides then t.arr.elems[(offset idx t.info.strides).toNat]? else none

/-- The tensor has the shape and the elements of the array. -/
def SameArray (t : DenseT) (b : PyBuf) : Prop :=
  t.info.shape = b.shape ∧ ∀ idx, InShape idx b.shape → tensorElement t idx = some (pyElement b idx)

/-- The array lies in its memory, and has as many strides as dimensions. -/
def PyValid (b : PyBuf) : Prop :=
  b.strides.length = b.shape.length ∧ b.ptr ≤ b.mem.length ∧
  ∀ idx, InShape idx b.shape → 0 ≤ b.ptr + offset idx b.strides ∧ b.ptr + offset idx b.strides + b.item ≤ b.mem.length

/-- The elements lie one after another in the order of C. -/
def Contiguous (b : PyBuf) : Prop := b.strides = (rowMajor b.shape).map (fun s => (b.item : Int) * s)

/-- The meaning of a DLPack type. -/
def DlMeans (ty : DlType) (k : Kind) (size : Nat) : Prop :=
  ty.bits = 8 * size ∧ ty.lanes = 1 ∧
  (match k with
    | .unsigned => ty.code = .uint
    | .signed => ty.code = .int
    | .float => ty.code = .float
    | .text => False)

/-- The element of a DLPack tensor: strides count elements. -/
def dlElement (t : DlTensor) (idx : List Nat) : Option Bytes :=
  if 0 ≤ offset idx t.strides then t.data[(offset idx t.strides).toNat + t.byteOffset]? else none

end Mlio.Spec
