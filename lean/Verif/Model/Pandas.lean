import Verif.Model.Exchange
import Verif.Model.PyError

/-!
# Arrays of strings in Python and pandas

`src/mlio-py/mlio/core/py_device_array.cc`, `src/mlio-py/mlio/integ/numpy.py` and `pandas.py`, with what they use of NumPy
(`flatten`) and pandas (`DataFrame`).  `ValueError` is `Err.invalidArgument`.
-/

namespace Mlio

/-- `Py_device_array` of strings, `py_device_array.h` 28-75: the strings, and `string_buf_`. -/
structure PyStrings where
  strings : List Bytes
  buf : List String := []
  deriving DecidableEq

/-- The loop of `make_or_get_string_buffer`, `py_device_array.cc` 46-51: the buffer, and whether all strings were decoded. -/
def fillStrings : List Bytes → List String → List String × Bool
  | [], buf => (buf, true)
  | b :: bs, buf =>
    match pyStr b with
    | some s => fillStrings bs (buf ++ [s])
    | none => (buf, false)

/-- `data()` and `make_or_get_string_buffer`, `py_device_array.cc` 36-64, for a caller that reads all elements (the size of
the exported buffer is that of the array, 70, 139).  A string that is not UTF-8 leaves the strings before it in the
buffer.  (`data` returns a null pointer then with the exception set; what NumPy makes of this is an error, too.) -/
def PyStrings.read (a : PyStrings) : Res (List String) × PyStrings :=
  if a.buf = [] then
    match fillStrings a.strings [] with
    | (buf, true) => (.ok buf, { a with buf := buf })
    | (buf, false) => (.err .invalidArgument, { a with buf := buf })
  else if a.buf.length < a.strings.length then (.ub "read beyond the buffer", a)
  else (.ok a.buf, a)

/-- A feature of an example: a dense tensor of numbers or of strings, or a sparse one. -/
inductive PyFeature where
  | dense (t : DenseT)
  | text (info : TensorInfo) (strings : List Bytes)
  | sparse
  deriving DecidableEq

/-- An element of a NumPy array: the bytes of a number, or an object. -/
inductive PyCell where
  | raw (b : Bytes)
  | str (s : String)
  deriving DecidableEq

/-- A NumPy array, with strides that count elements. -/
structure NpArray where
  shape : List Nat
  strides : List Int
  elems : List PyCell
  deriving DecidableEq

/-- `as_numpy`, `numpy.py` 19-27, with `to_py_buffer`, `core/tensor.cc` 63-84, which makes a new `Py_device_array`. -/
def asNumpy : PyFeature → Res NpArray
  | .sparse => .err .invalidArgument
  | .dense t => .ok ⟨t.info.shape, t.info.strides, t.arr.elems.map .raw⟩
  | .text info strings =>
    match (PyStrings.read { strings := strings }).1 with
    | .ok ss => .ok ⟨info.shape, info.strides, ss.map .str⟩
    | .err e => .err e
    | .ub w => .ub w

/-- The positions in an array, relative to the first element, in row-major order. -/
def npOffsets : List Nat → List Int → List Int
  | d :: ds, s :: ss => (List.range d).flatMap fun (i : Nat) => (npOffsets ds ss).map fun o => (i : Int) * s + o
  | _, _ => [0]

/-- The elements at the given positions. -/
def npGather (elems : List PyCell) : List Int → Res (List PyCell)
  | [] => .ok []
  | o :: os =>
    match (if 0 ≤ o then elems[o.toNat]? else none) with
    | none => .ub "read beyond the buffer"
    | some c =>
      match npGather elems os with
      | .ok cs => .ok (c :: cs)
      | .err e => .err e
      | .ub w => .ub w

/-- `ndarray.flatten()`. -/
def NpArray.flatten (a : NpArray) : Res (List PyCell) := npGather a.elems (npOffsets a.shape a.strides)

/-- The dictionary of `to_pandas`, `pandas.py` 23-24. -/
def pandasData : List (Bytes × PyFeature) → Res (List (Bytes × List PyCell))
  | [] => .ok []
  | (n, f) :: fs =>
    match asNumpy f with
    | .err e => .err e
    | .ub w => .ub w
    | .ok a =>
      match a.flatten with
      | .err e => .err e
      | .ub w => .ub w
      | .ok c =>
        match pandasData fs with
        | .ok cs => .ok ((n, c) :: cs)
        | .err e => .err e
        | .ub w => .ub w

/-- `to_pandas`, `pandas.py` 19-26.  `DataFrame` refuses columns of different lengths. -/
def toPandas (fs : List (Bytes × PyFeature)) : Res (List (Bytes × List PyCell)) :=
  match pandasData fs with
  | .err e => .err e
  | .ub w => .ub w
  | .ok cs =>
    if ∀ c ∈ cs, ∀ d ∈ cs, c.2.length = d.2.length then .ok cs else .err .invalidArgument

end Mlio
