import Verif.Model.Tensor

/-!
# Exchange of arrays with Python and with other frameworks

`src/mlio-py/mlio/core/py_buffer.cc`, `py_device_array.cc`, `tensor.cc`, `src/mlio-py/mlio/integ/numpy.py`,
`src/mlio/integ/dlpack.cc`, for a 64 bit platform.
-/

namespace Mlio

/-- `sizeof(data_type_t<dt>)`, `include/mlio/data_type.h` 53-130.  Strings are exchanged as pointers to Python objects. -/
def itemSize : DataType → Nat
  | .size => 8 | .float16 => 2 | .float32 => 4 | .float64 => 8
  | .int8 => 1 | .int16 => 2 | .int32 => 4 | .int64 => 8
  | .uint8 => 1 | .uint16 => 2 | .uint32 => 4 | .uint64 => 8
  | .string => 8

/-- The `switch` of `get_data_type`, `py_buffer.cc` 131-217. -/
def formatType (fmt : Char) (itemsize : Nat) : Option DataType :=
  match fmt with
  | 'N' => if itemsize = 8 then some .size else none
  | 'e' => if itemsize = 2 then some .float16 else none
  | 'f' => if itemsize = 4 then some .float32 else none
  | 'd' => if itemsize = 8 then some .float64 else none
  | 'b' => if itemsize = 1 then some .int8 else none
  | 'h' => if itemsize = 2 then some .int16 else none
  | 'i' => if itemsize = 4 then some .int32 else none
  | 'l' => if itemsize = 4 then some .int32 else if itemsize = 8 then some .int64 else none
  | 'q' => if itemsize = 8 then some .int64 else none
  | 'B' => if itemsize = 1 then some .uint8 else none
  | 'H' => if itemsize = 2 then some .uint16 else none
  | 'I' => if itemsize = 4 then some .uint32 else none
  | 'L' => if itemsize = 4 then some .uint32 else if itemsize = 8 then some .uint64 else none
  | 'Q' => if itemsize = 8 then some .uint64 else none
  | 'O' => if itemsize = 8 then some .string else none
  | _ => none

/-- `get_data_type`, `py_buffer.cc` 112-220. -/
def getDataType (fmt : List Char) (itemsize : Nat) : Option DataType :=
  match fmt with
  | [c] => formatType c itemsize
  | [p, c] => if p ≠ '@' ∧ p ≠ '=' then none else formatType c itemsize
  | _ => none

/-- A Python buffer as `PyBUF_STRIDES | PyBUF_FORMAT` describes it: the memory that the object owns, where the first
element is, and the strides in bytes. -/
structure PyBuf where
  fmt : List Char
  item : Nat
  mem : Bytes
  ptr : Nat
  shape : List Nat
  strides : List Int
  deriving DecidableEq, Repr

/-- The number of elements, `info.size`. -/
def PyBuf.size (b : PyBuf) : Nat := b.shape.foldl (· * ·) 1

/-- `Device_array` as far as it matters here: its elements. -/
structure DevArr where
  dt : DataType
  elems : List Bytes
  deriving DecidableEq, Repr

/-- The elements that lie one after another in memory. -/
def consecutive (item : Nat) : Nat → Bytes → List Bytes
  | 0, _ => []
  | n + 1, mem => mem.take item :: consecutive item n (mem.drop item)

/-- `make_device_array`, `py_buffer.cc` 278-290, with `Make_cpu_array_op`, 222-274: `info.size` elements from `info.ptr`
on.  Without copying, an array that reaches beyond the memory is undefined only when it is used; here it is so at once. -/
def makeDeviceArray (b : PyBuf) (cpy : Bool) : Res DevArr :=
  match getDataType b.fmt b.item with
  | none => .err .invalidArgument
  | some dt =>
    if dt = .string ∧ ¬ cpy then .err .invalidArgument
    else if b.mem.length < b.ptr + b.size * b.item then .ub "read beyond the buffer"
    else .ok ⟨dt, consecutive b.item b.size (b.mem.drop b.ptr)⟩

/-- A `Dense_tensor`. -/
structure DenseT where
  info : TensorInfo
  arr : DevArr
  deriving DecidableEq, Repr

/-- `make_dense_tensor`, `src/mlio-py/mlio/core/tensor.cc` 33-46. -/
def makeDenseTensor (shape : List Nat) (data : PyBuf) (strides : Option (List Int)) (cpy : Bool) : Res DenseT :=
  match makeDeviceArray data cpy with
  | .ok arr =>
    match denseTensor shape (strides.getD []) arr.elems.length with
    | .ok info => .ok ⟨info, arr⟩
    | .err e => .err e
    | .ub w => .ub w
  | .err e => .err e
  | .ub w => .ub w

/-- `to_tensor` (`cpy`) and `as_tensor`, `numpy.py` 41-61.  Python's `//` rounds down.  (The test for scalar types at the
head of `as_tensor` is left out: object arrays are refused by `make_device_array`.) -/
def numpyToTensor (a : PyBuf) (cpy : Bool) : Res DenseT :=
  makeDenseTensor a.shape a (some (a.strides.map (fun s => s.fdiv 8))) cpy

/-- The `switch` of `to_py_buffer`, `py_device_array.cc` 75-134. -/
def exportFormat : DataType → Char × Nat
  | .size => ('q', 8)
  | .float16 => ('e', 2) | .float32 => ('f', 4) | .float64 => ('d', 8)
  | .int8 => ('b', 1) | .int16 => ('h', 2) | .int32 => ('i', 4) | .int64 => ('q', 8)
  | .uint8 => ('B', 1) | .uint16 => ('H', 2) | .uint32 => ('I', 4) | .uint64 => ('Q', 8)
  | .string => ('O', 8)

/-- `to_py_buffer`, `tensor.cc` 63-84, of a dense tensor; what `as_numpy` gives.  Dimensions above `2 ^ 63` are left out. -/
def tensorToPy (t : DenseT) : PyBuf :=
  { fmt := [(exportFormat t.arr.dt).1]
    item := (exportFormat t.arr.dt).2
    mem := t.arr.elems.flatten
    ptr := 0
    shape := t.info.shape
    strides := t.info.strides.map (fun s => ((exportFormat t.arr.dt).2 : Int) * s) }

/-- `DLDataTypeCode`. -/
inductive DlCode where
  | int | uint | float
  deriving DecidableEq, Repr

/-- `DLDataType`. -/
structure DlType where
  code : DlCode
  bits : Nat
  lanes : Nat
  deriving DecidableEq, Repr

/-- `as_dl_data_type`, `dlpack.cc` 50-93. -/
def asDlDataType : DataType → Res DlType
  | .size => .ok ⟨.uint, 8 * 8, 1⟩
  | .float16 => .ok ⟨.float, 8 * 2, 1⟩
  | .float32 => .ok ⟨.float, 8 * 4, 1⟩
  | .float64 => .ok ⟨.float, 8 * 8, 1⟩
  | .int8 => .ok ⟨.int, 8 * 1, 1⟩
  | .int16 => .ok ⟨.int, 8 * 2, 1⟩
  | .int32 => .ok ⟨.int, 8 * 4, 1⟩
  | .int64 => .ok ⟨.int, 8 * 8, 1⟩
  | .uint8 => .ok ⟨.uint, 8 * 1, 1⟩
  | .uint16 => .ok ⟨.uint, 8 * 2, 1⟩
  | .uint32 => .ok ⟨.uint, 8 * 4, 1⟩
  | .uint64 => .ok ⟨.uint, 8 * 8, 1⟩
  | .string => .err .notSupported

/-- `DLTensor`: its data (the elements it points to), data type, shape and strides; null pointers are empty lists. -/
structure DlTensor where
  data : List Bytes
  dtype : DlType
  ndim : Nat
  shape : List Int
  strides : List Int
  byteOffset : Nat

/-- `as_dlpack`, `dlpack.cc` 147-190, of a dense tensor on the CPU; `supported` is `DLPACK_VERSION`.  Sizes are
reinterpreted as signed numbers (97-105). -/
def asDlpack (t : DenseT) (version supported : Nat) : Res DlTensor :=
  if version ≠ supported then .err .notSupported
  else
    match asDlDataType t.arr.dt with
    | .ok ty => .ok ⟨t.arr.elems, ty, t.info.shape.length, t.info.shape.map asSsize, t.info.strides, 0⟩
    | .err e => .err e
    | .ub w => .ub w

end Mlio
