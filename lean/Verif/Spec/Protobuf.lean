import Verif.Model.Protobuf
import Verif.Spec.Tensor

/-!
# What decoding RecordIO-protobuf instances should do

Only the types of the model are used, and the names of the features of a message (`PRecord.entries`).
-/

namespace Mlio.Spec

variable {V : Type}

/-- The coordinates of the element with number `k`, counted in row-major order. -/
def unravel : List Nat → Nat → List Nat
  | [], _ => []
  | _ :: ds, k => k / numElements ds :: unravel ds (k % numElements ds)

/-- An attribute as it is made from a message: a batch dimension in front, default strides that can be represented. -/
structure AttrOk (a : Attr) (dims : List Nat) : Prop where
  shape : ∃ b, a.shape = b :: dims
  strides : a.strides = rowMajor a.shape
  rank : dims ≠ []
  fit : StridesFit a.shape
  size : numElements dims < 2 ^ 63
  /-- no dimension but the first may be zero if the attribute is sparse -/
  pos : a.sparse = true → ∀ d ∈ dims.tail, 0 < d

/-- The schema was made from attributes as messages have them. -/
structure SchemaOk (s : Schema) : Prop where
  made : makeSchema s.attrs = .ok s
  attrs : ∀ a ∈ s.attrs, AttrOk a a.shape.tail

/-- The shape of the tensor is that of the attribute; a vector need not give its shape. -/
def ShapeFits (dims : List Nat) (t : PTensor V) : Prop :=
  t.shape = dims ∨ (t.shape = [] ∧ dims = [t.values.length])

/-- The tensor has keys, or neither keys nor values but a shape. -/
def Sparse (t : PTensor V) : Prop := t.keys ≠ [] ∨ (t.values = [] ∧ t.shape ≠ [])

/-- The tensor is a value for the attribute: shape, sparseness, the number of values, valid keys. -/
def TensorFits (a : Attr) (t : PTensor V) : Prop :=
  ShapeFits a.shape.tail t ∧
  (if a.sparse then Sparse t ∧ t.keys.length = t.values.length ∧ ∀ k ∈ t.keys, k < numElements a.shape.tail
   else ¬ Sparse t ∧ t.values.length = numElements a.shape.tail)

/-- The value is one for the attribute. -/
def ValueFits (a : Attr) (v : PValue V) : Prop := ∃ t, v = .tensor a.dt t ∧ TensorFits a t

/-- The value passes all checks for a sparse attribute, except perhaps that of the keys. -/
def Appendable (a : Attr) (v : PValue V) : Prop :=
  ∃ t, v = .tensor a.dt t ∧ a.sparse = true ∧ Sparse t ∧ ShapeFits a.shape.tail t ∧ t.keys.length = t.values.length

/-- Every attribute has a value that fits, and there are no other features. -/
def Conforms (s : Schema) (r : PRecord V) : Prop :=
  (∀ a ∈ s.attrs, ∃ v, (a.name, v) ∈ r.entries ∧ ValueFits a v) ∧ (∀ e ∈ r.entries, e.1 ∈ s.attrs.map Attr.name)

/-- No two features end up with the same name. -/
def NoClash (r : PRecord V) : Prop := (r.entries.map Prod.fst).Nodup

open Classical in
/-- The instances that can be parsed and conform to the schema. -/
noncomputable def conforming (s : Schema) (rs : List (Option (PRecord V))) : List (PRecord V) :=
  (rs.filterMap id).filter fun r => decide (Conforms s r)

/-- The instance cannot be parsed, or does not conform to the schema. -/
def IsBad (s : Schema) (r : Option (PRecord V)) : Prop := ∀ x, r = some x → ¬ Conforms s x

/-- The instance has no value for a sparse attribute that passes the checks made before values are appended. -/
def NoSparse (s : Schema) (r : Option (PRecord V)) : Prop :=
  ∀ x, r = some x → ∀ a ∈ s.attrs, ∀ v, (a.name, v) ∈ x.entries → ¬ Appendable a v

/-- The tensor that the message has under the given name. -/
def tensorOf (n : Bytes) (r : PRecord V) : Option (PTensor V) :=
  match r.entries.lookup n with
  | some (.tensor _ t) => some t
  | _ => none

/-- The values of an attribute, instance by instance. -/
def rowsOf (a : Attr) (rs : List (PRecord V)) : List (PTensor V) := rs.filterMap (tensorOf a.name)

/-- The elements of a sparse tensor: coordinates with the row in front, and the value. -/
def cooEntries (dims : List Nat) (rows : List (PTensor V)) : List (List Nat × V) :=
  rows.zipIdx.flatMap fun x => (x.1.keys.zip x.1.values).map fun kv => (x.2 :: unravel dims kv.1, kv.2)

/-- The coordinate vectors of a list of elements. -/
def columns (rank : Nat) (es : List (List Nat × V)) : List (List Nat) :=
  (List.range rank).map fun j => es.map fun e => e.1.getD j 0

/-- From position `start` on – if `dirty`, only from `start + row` on – all elements are zero. -/
def ZeroFrom (zero : V) (dirty : Prop) (start row : Nat) (data : List V) : Prop :=
  ∀ (j : Nat) (x : V), (start + row ≤ j ∨ (start ≤ j ∧ ¬ dirty)) → data[j]? = some x → x = zero

/-- The last instance of the batch is bad. -/
def LastBad (s : Schema) (rs : List (Option (PRecord V))) : Prop := ∃ r, rs.getLast? = some r ∧ IsBad s r

/-- The feature for attribute `a` of an example of size `size` with the given rows: for a sparse attribute exactly the
elements of the rows, each with its row number; for a dense one the rows one after the other at the front, and zeros
behind them (if `dirty`, nothing is said about the row behind them). -/
def FeatureHolds (zero : V) (dirty : Prop) (a : Attr) (size : Nat) (rows : List (PTensor V)) (f : PTensorOut V) : Prop :=
  if a.sparse then
    f = .coo (size :: a.shape.tail) ((cooEntries a.shape.tail rows).map Prod.snd)
      (columns a.shape.length (cooEntries a.shape.tail rows))
  else
    ∃ data, f = .dense (size :: a.shape.tail) data ∧ data.length = size * numElements a.shape.tail ∧
      (rows.map PTensor.values).flatten <+: data ∧
      ZeroFrom zero dirty (rows.length * numElements a.shape.tail) (numElements a.shape.tail) data

/-- The shape of a tensor of a message without the batch dimension. -/
def dimsOf (t : PTensor V) : List Nat := if t.shape = [] then [t.values.length] else t.shape

/-- The tensor makes sense by itself: its size can be represented, it has as many values as elements, or as many keys
as values, all of them valid. -/
structure TensorOk (t : PTensor V) : Prop where
  fit : StridesFit (0 :: dimsOf t)
  size : numElements (dimsOf t) < 2 ^ 63
  dense : ¬ Sparse t → t.values.length = numElements (dimsOf t)
  sparse : Sparse t → t.shape ≠ [] ∧ (∀ d ∈ t.shape.tail, 0 < d) ∧ t.keys.length = t.values.length ∧
    ∀ k ∈ t.keys, k < numElements t.shape

end Mlio.Spec
