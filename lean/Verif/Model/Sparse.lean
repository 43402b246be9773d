import Verif.Model.Exchange

/-!
# Sparse tensors in SciPy and TensorFlow

`src/mlio-py/mlio/integ/scipy.py` and `tensorflow.py`, with the parts of SciPy (1.4) and TensorFlow (2) that they call:
`coo_matrix`, `tocsr`, `nonzero` and `tf.SparseTensor`, as their documentation and sources describe them.  `V` are the
values, with their addition and their test against zero.  `ValueError` is `Err.invalidArgument`.
-/

namespace Mlio

variable {V : Type}

/-- `Coo_tensor`, `include/mlio/tensor.h` 130-182: its shape, its data and a coordinate vector for each dimension. -/
structure CooT (V : Type) where
  shape : List Nat
  data : List V
  coords : List (List Nat)
  deriving DecidableEq, Repr

/-- `Coo_tensor::indices`, `include/mlio/tensor.h` 160-168: `at` throws `std::out_of_range` if there is no such dimension,
and the function is `noexcept`. -/
def CooT.indices (t : CooT V) (dim : Nat) : Res (List Nat) :=
  match t.coords[dim]? with
  | some c => .ok c
  | none => .ub "std::terminate"

/-- A SciPy `coo_matrix`. -/
structure CooMatrix (V : Type) where
  rows : Nat
  cols : Nat
  row : List Int
  col : List Int
  data : List V
  deriving DecidableEq, Repr

/-- The value of a number converted to `np.int32`. -/
def wrap32 (x : Int) : Int := (x + 2 ^ 31) % 2 ^ 32 - 2 ^ 31

/-- `np.array(row, dtype=get_index_dtype(maxval=max(shape)))` in the constructor of `coo_matrix`: 32 bits suffice if no
dimension is above `2 ^ 31 - 1`. -/
def scipyIndex (rows cols : Nat) (x : Int) : Int := if max rows cols ≤ 2 ^ 31 - 1 then wrap32 x else x

/-- `coo_matrix((data, (row, col)), (rows, cols), copy=True)`, with `_check`: the three arrays have the same size, and all
indices are in the matrix. -/
def scipyCoo (rows cols : Nat) (data : List V) (row col : List Int) : Res (CooMatrix V) :=
  let row' := row.map (scipyIndex rows cols)
  let col' := col.map (scipyIndex rows cols)
  if row.length ≠ data.length ∨ col.length ≠ data.length then .err .invalidArgument
  else if ∃ i ∈ row', i < 0 ∨ (rows : Int) ≤ i then .err .invalidArgument
  else if ∃ j ∈ col', j < 0 ∨ (cols : Int) ≤ j then .err .invalidArgument
  else .ok ⟨rows, cols, row', col', data⟩

/-- `to_coo_matrix`, `scipy.py` 20-41.  The coordinates are exported as signed numbers (`py_device_array.cc` 80-86). -/
def toCooMatrix (t : CooT V) : Res (CooMatrix V) :=
  if t.shape.length > 2 then .err .invalidArgument
  else
    let s := if t.shape.length = 1 then 1 :: t.shape else t.shape
    match t.indices 0 with
    | .err e => .err e
    | .ub w => .ub w
    | .ok rows =>
      match t.indices 1 with
      | .err e => .err e
      | .ub w => .ub w
      | .ok cols =>
        match s with
        | [m, n] => scipyCoo m n t.data (rows.map asSsize) (cols.map asSsize)
        | _ => .err .invalidArgument

/-- `to_tensor`, `scipy.py` 44-58, with `make_coo_tensor`, `core/tensor.cc` 48-61: the indices are copied, the data is
not.  The matrix is given by its shape, its indices and the buffer of its data. -/
def fromCooMatrix (rows cols : Nat) (row col : List Int) (data : PyBuf) : Res (CooT Bytes) :=
  match makeDeviceArray data false with
  | .err e => .err e
  | .ub w => .ub w
  | .ok arr =>
    match cooTensor [rows, cols] arr.elems.length [row.length, col.length] with
    | .err e => .err e
    | .ub w => .ub w
    | .ok _ => .ok ⟨[rows, cols], arr.elems, [row.map asSize, col.map asSize]⟩

/-- The entries of a row of a matrix, in the order in which they are stored. -/
def CooMatrix.rowEntries (m : CooMatrix V) (i : Nat) : List (Int × V) :=
  ((m.row.zip (m.col.zip m.data)).filter fun e => decide (e.1 = (i : Int))).map Prod.snd

/-- `csr_sum_duplicates` for one row: neighbours with the same column are added, from left to right. -/
def sumRuns (add : V → V → V) : List (Int × V) → List (Int × V)
  | [] => []
  | [e] => [e]
  | e :: f :: l => if e.1 = f.1 then sumRuns add ((e.1, add e.2 f.2) :: l) else e :: sumRuns add (f :: l)
  termination_by l => l.length

/-- `coo_matrix.tocsr()`: the entries row by row, each row sorted by column (`sort`; entries of the same column may come
out in any order) and duplicates added. -/
def tocsr (add : V → V → V) (sort : List (Int × V) → List (Int × V)) (m : CooMatrix V) : List (Nat × List (Int × V)) :=
  (List.range m.rows).map fun i => (i, sumRuns add (sort (m.rowEntries i)))

/-- The stored entries of a CSR matrix, in order. -/
def csrEntries (rows : List (Nat × List (Int × V))) : List ((Nat × Int) × V) :=
  rows.flatMap fun r => r.2.map fun e => ((r.1, e.1), e.2)

/-- A `tf.SparseTensor`. -/
structure TfSparse (V : Type) where
  indices : List (Nat × Int)
  values : List V
  shape : Nat × Nat
  deriving DecidableEq, Repr

/-- `tf.SparseTensor(indices, values, shape)`: there must be as many values as indices. -/
def tfSparse (indices : List (Nat × Int)) (values : List V) (shape : Nat × Nat) : Res (TfSparse V) :=
  if indices.length = values.length then .ok ⟨indices, values, shape⟩ else .err .invalidArgument

/-- `to_tf` of a sparse tensor, `tensorflow.py` 22-32: `nonzero` gives the indices of the stored entries that are not
zero, `data` has all of them. -/
def toTf (add : V → V → V) (isZero : V → Bool) (sort : List (Int × V) → List (Int × V)) (t : CooT V) : Res (TfSparse V) :=
  match toCooMatrix t with
  | .err e => .err e
  | .ub w => .ub w
  | .ok m =>
    let es := csrEntries (tocsr add sort m)
    tfSparse ((es.filter fun e => ! isZero e.2).map Prod.fst) (es.map Prod.snd) (m.rows, m.cols)

end Mlio
