import Verif.Model.Schema
import Verif.Model.CsvDecode

/-!
# RecordIO-protobuf: `src/mlio/coo_tensor_builder.{h,cc}` and `src/mlio/recordio_protobuf_reader.cc`

Here an instance is the parsed message, or nothing if `ParseFromArray` fails; for the bytes of messages see `Verif/Model/Wire.lean`.
The maps of a message are lists in the order of iteration (`map<string, Value>` has each key once; the order is not
specified, and the theorems are about every order).  `V` stands for the values of all three tensor types.  Log messages
are left out.  `try_narrow` from `std::uint64_t` to `std::size_t` (`include/mlio/util/cast.h` 64-77) always succeeds on a
64-bit system.
-/

namespace Mlio

/-- `Coo_tensor_builder_impl`, `coo_tensor_builder.h` 34-77, for the attribute with shape `shape` and strides
`strides`. -/
structure CooBuilder (V : Type) where
  shape : List Nat
  strides : List Int
  batch : Nat
  row : Nat
  data : List V
  coords : List (List Nat)
  deriving DecidableEq, Repr

/-- The constructor, `coo_tensor_builder.h` 36-38. -/
def CooBuilder.new {V : Type} (a : Attr) (batch : Nat) : CooBuilder V :=
  ⟨a.shape, a.strides, batch, 0, [], List.replicate a.shape.length []⟩

/-- The inner loop of `append_indices`, `coo_tensor_builder.cc` 53-68: the indices appended to the coordinate vectors
from the second one on, and whether the loop ended without `return false`. -/
def splitKey : (dims : List Nat) → (strides : List Int) → (idx : Nat) → Res (List Nat × Bool)
  | d :: ds, s :: ss, idx =>
    if asSize s = 0 then .ub "division by zero"
    else if idx / asSize s ≥ d then .ok ([], false)
    else
      match splitKey ds ss (idx % asSize s) with
      | .ok (r, b) => .ok (idx / asSize s :: r, b)
      | .err e => .err e
      | .ub w => .ub w
  | _, _, _ => .ok ([], true)

/-- `emplace_back` of one index to each coordinate vector, as far as there are indices. -/
def pushCoords : List (List Nat) → List Nat → List (List Nat)
  | c :: cs, i :: is => (c ++ [i]) :: pushCoords cs is
  | cs, _ => cs

/-- The outer loop of `append_indices`, `coo_tensor_builder.cc` 43-73. -/
def CooBuilder.appendKeys {V : Type} (b : CooBuilder V) : List Nat → Res (Bool × CooBuilder V)
  | [] => .ok (true, { b with row := b.row + 1 })
  | k :: ks =>
    match splitKey b.shape.tail b.strides.tail k with
    | .err e => .err e
    | .ub w => .ub w
    | .ok (is, ok) =>
      let b' := { b with coords := pushCoords b.coords (b.row :: is) }
      if ok then b'.appendKeys ks else .ok (false, b')

/-- `Coo_tensor_builder_impl::append`, `coo_tensor_builder.h` 79-86. -/
def CooBuilder.append {V : Type} (b : CooBuilder V) (values : List V) (keys : List Nat) : Res (Bool × CooBuilder V) :=
  { b with data := b.data ++ values }.appendKeys keys

/-- A tensor of an example. -/
inductive PTensorOut (V : Type) where
  | dense (shape : List Nat) (data : List V)
  | coo (shape : List Nat) (data : List V) (coords : List (List Nat))
  deriving DecidableEq, Repr

/-- `build` and `build_core`, `coo_tensor_builder.h` 88-94 and `coo_tensor_builder.cc` 76-94. -/
def CooBuilder.build {V : Type} (b : CooBuilder V) : Res (PTensorOut V) :=
  let shape := b.shape.set 0 b.batch
  match cooTensor shape b.data.length (b.coords.map List.length) with
  | .ok _ => .ok (.coo shape b.data b.coords)
  | .err e => .err e
  | .ub w => .ub w

/-- A protobuf tensor, `recordio_protobuf.proto` 8-63. -/
structure PTensor (V : Type) where
  values : List V
  keys : List Nat := []
  shape : List Nat := []
  deriving DecidableEq, Repr

/-- `Value`, `recordio_protobuf.proto` 77-87: the data type is `float32`, `float64` or `int32`. -/
inductive PValue (V : Type) where
  | tensor (dt : DataType) (t : PTensor V)
  | bytes
  | unset
  deriving DecidableEq, Repr

/-- `Record`, `recordio_protobuf.proto` 89-126. -/
structure PRecord (V : Type) where
  label : List (Bytes × PValue V)
  features : List (Bytes × PValue V)
  deriving DecidableEq, Repr

/-- `"label_"` -/
def labelPrefix : Bytes := [108, 97, 98, 101, 108, 95]

/-- The features in the order in which they are visited, with the names used for the attributes,
`recordio_protobuf_reader.cc` 140-148 and 492-505. -/
def PRecord.entries {V : Type} (r : PRecord V) : List (Bytes × PValue V) :=
  r.label.map (fun e => (labelPrefix ++ e.1, e.2)) ++ r.features

/-! ## Schema inference -/

/-- `make_attribute`, `recordio_protobuf_reader.cc` 166-240, with `copy_shape`, 242-263. -/
def protoAttr {V : Type} (batch : Nat) (name : Bytes) : PValue V → Res Attr
  | .bytes => .err .notSupported
  | .unset => .err .schemaError
  | .tensor dt t =>
    if t.keys.isEmpty then
      if t.shape.isEmpty then makeAttr name dt [batch, t.values.length] [] false
      else makeAttr name dt (batch :: t.shape) [] t.values.isEmpty
    else if t.shape.isEmpty then .err .schemaError
    else makeAttr name dt (batch :: t.shape) [] true

def protoAttrs {V : Type} (batch : Nat) : List (Bytes × PValue V) → Res (List Attr)
  | [] => .ok []
  | (n, v) :: es =>
    match protoAttr batch n v with
    | .err e => .err e
    | .ub w => .ub w
    | .ok a =>
      match protoAttrs batch es with
      | .ok as => .ok (a :: as)
      | .err e => .err e
      | .ub w => .ub w

/-- `Recordio_protobuf_reader::infer_schema`, `recordio_protobuf_reader.cc` 125-164.  The outer option is an absent
instance, the inner one a message that cannot be parsed.  (For the counter of values per instance
see `valuesPerInstance`.) -/
def protoSchema {V : Type} (batch : Nat) : Option (Option (PRecord V)) → Res (Option Schema)
  | none => .ok none
  | some none => .err .schemaError
  | some (some r) =>
    match protoAttrs batch r.entries with
    | .err e => .err e
    | .ub w => .ub w
    | .ok as =>
      match makeSchema as with
      | .ok s => .ok (some s)
      | .err e => .err e
      | .ub w => .ub w

/-! ## Decoding an instance -/

/-- What a feature does to the tensor or builder of its attribute. -/
inductive PWrite (V : Type) where
  | dense (values : List V)
  | sparse (values : List V) (keys : List Nat)
  deriving DecidableEq, Repr

/-- `Decoder::is_sparse`, `recordio_protobuf_reader.cc` 715-722. -/
def isSparse {V : Type} (t : PTensor V) : Bool :=
  if t.keys.isEmpty then t.values.isEmpty && !t.shape.isEmpty else true

/-- `Decoder::shape_equals`, `recordio_protobuf_reader.cc` 724-758. -/
def shapeEquals {V : Type} (shape : List Nat) (t : PTensor V) : Bool :=
  if t.shape.isEmpty then
    if shape.length = 2 then shape[1]? == some t.values.length else false
  else if (shape.length : Int) - 1 ≠ t.shape.length then false
  else shape.tail == t.shape

/-- The keys are valid: `append_indices` as a test.  (Its answer does not depend on the state of the builder.) -/
def keysOk (shape : List Nat) (strides : List Int) : List Nat → Res Bool
  | [] => .ok true
  | k :: ks =>
    match splitKey shape.tail strides.tail k with
    | .err e => .err e
    | .ub w => .ub w
    | .ok (_, true) => keysOk shape strides ks
    | .ok (_, false) => .ok false

/-- The end of a bad instance: throw or return false. -/
def badInstance (errorBad : Bool) : Res Bool := if errorBad then .err .invalidInstance else .ok false

/-- `Decoder::decode_feature`, `recordio_protobuf_reader.cc` 561-713, with `copy_to_tensor`, 760-799, and
`append_to_builder`, 801-850: what is written to which attribute, and the outcome. -/
def featureRun {V : Type} (errorBad : Bool) (s : Schema) (name : Bytes) (v : PValue V) :
    Option (Nat × PWrite V) × Res Bool :=
  match s.getIndex name with
  | none => (none, badInstance errorBad)
  | some i =>
    match s.attrs[i]? with
    | none => (none, .ub "index out of range")
    | some a =>
      match v with
      | .bytes => (none, badInstance errorBad)
      | .unset => (none, badInstance errorBad)
      | .tensor dt t =>
        if a.dt ≠ dt then (none, badInstance errorBad)
        else if isSparse t ≠ a.sparse then (none, badInstance errorBad)
        else if !shapeEquals a.shape t then (none, badInstance errorBad)
        else if a.sparse then
          if t.keys.length ≠ t.values.length then (none, badInstance errorBad)
          else
            (some (i, .sparse t.values t.keys),
              match keysOk a.shape a.strides t.keys with
              | .ok true => .ok true
              | .ok false => badInstance errorBad
              | .err e => .err e
              | .ub w => .ub w)
        else if a.strides.head? ≠ some (t.values.length : Int) then (none, badInstance errorBad)
        else (some (i, .dense t.values), .ok true)

/-- The two loops of `Decoder::decode`, `recordio_protobuf_reader.cc` 492-505. -/
def featuresRun {V : Type} (errorBad : Bool) (s : Schema) : List (Bytes × PValue V) → List (Nat × PWrite V) × Res Bool
  | [] => ([], .ok true)
  | (n, v) :: es =>
    match featureRun errorBad s n v with
    | (w, .ok true) => (w.toList ++ (featuresRun errorBad s es).1, (featuresRun errorBad s es).2)
    | (w, o) => (w.toList, o)

/-- `Decoder::decode`, `recordio_protobuf_reader.cc` 479-533.  The number of features read is the number of features of
the message when the loops end. -/
def recordRun {V : Type} (errorBad : Bool) (s : Schema) : Option (PRecord V) → List (Nat × PWrite V) × Res Bool
  | none => ([], badInstance errorBad)
  | some r =>
    match featuresRun errorBad s r.entries with
    | (ws, .ok true) =>
      (ws, if r.entries.length = s.attrs.length then .ok true else badInstance errorBad)
    | (ws, o) => (ws, o)

/-! ## Decoding a batch -/

/-- An element of `Decoder_state::tensors` and `coo_tensor_builders`, `recordio_protobuf_reader.cc` 62-63. -/
inductive Slot (V : Type) where
  | dense (shape : List Nat) (data : List V)
  | sparse (b : CooBuilder V)
  deriving DecidableEq, Repr

/-- `init_tensor` and `init_coo_tensor_builder`, `recordio_protobuf_reader.cc` 449-477.  New arrays are filled with
zeros (`cpu_array.cc` 24-29).  The product is computed modulo `2 ^ 64`. -/
def initSlot {V : Type} (zero : V) (size : Nat) (a : Attr) : Res (Slot V) :=
  if a.sparse then .ok (.sparse (CooBuilder.new a size))
  else
    match a.strides with
    | [] => .ub "no batch dimension"
    | s :: _ =>
      let n := size * asSize s % 2 ^ 64
      let shape := a.shape.set 0 size
      match denseTensor shape [] n with
      | .ok _ => .ok (.dense shape (List.replicate n zero))
      | .err e => .err e
      | .ub w => .ub w

/-- `Decoder_state::init_state`, `recordio_protobuf_reader.cc` 432-447. -/
def initSlots {V : Type} (zero : V) (size : Nat) : List Attr → Res (List (Slot V))
  | [] => .ok []
  | a :: as =>
    match initSlot zero size a with
    | .err e => .err e
    | .ub w => .ub w
    | .ok s =>
      match initSlots zero size as with
      | .ok ss => .ok (s :: ss)
      | .err e => .err e
      | .ub w => .ub w

/-- `std::copy_n` to position `off`. -/
def splice {V : Type} (l : List V) (off : Nat) (vs : List V) : List V := l.take off ++ vs ++ l.drop (off + vs.length)

/-- The effect of a write for the instance in row `row`, `recordio_protobuf_reader.cc` 790-796 and 826-831. -/
def Slot.write {V : Type} (row : Nat) : Slot V → PWrite V → Res (Slot V)
  | .dense shape data, .dense vs =>
    if row * vs.length + vs.length ≤ data.length then .ok (.dense shape (splice data (row * vs.length) vs))
    else .ub "write outside of a tensor"
  | .sparse b, .sparse vs ks =>
    match b.append vs ks with
    | .ok (_, b') => .ok (.sparse b')
    | .err e => .err e
    | .ub w => .ub w
  | _, _ => .ub "null pointer dereferenced"

/-- All writes of an instance, in order. -/
def writeSlots {V : Type} (row : Nat) : List (Slot V) → List (Nat × PWrite V) → Res (List (Slot V))
  | ss, [] => .ok ss
  | ss, (i, w) :: ws =>
    match ss[i]? with
    | none => .ub "index out of range"
    | some s =>
      match s.write row w with
      | .ok s' => writeSlots row (ss.set i s') ws
      | .err e => .err e
      | .ub w => .ub w

/-- `decode_serial`, `recordio_protobuf_reader.cc` 343-368, from row `row` on. -/
def protoSerial {V : Type} (h : BadHandling) (s : Schema) :
    List (Option (PRecord V)) → (row : Nat) → List (Slot V) → Res (Option Nat × List (Slot V))
  | [], row, ss => .ok (some row, ss)
  | r :: rs, row, ss =>
    match writeSlots row ss (recordRun (h == .error) s r).1 with
    | .err e => .err e
    | .ub w => .ub w
    | .ok ss' =>
      match (recordRun (h == .error) s r).2 with
      | .err e => .err e
      | .ub w => .ub w
      | .ok true => protoSerial h s rs (row + 1) ss'
      | .ok false =>
        if h = .skip ∨ h = .skipWarn then .ok (none, ss')
        else if h = .pad ∨ h = .padWarn then protoSerial h s rs row ss'
        else .err .invalidArgument

/-- `recordio_protobuf_reader.cc` 325-333, for one feature. -/
def Slot.build {V : Type} : Slot V → Res (PTensorOut V)
  | .dense shape data => .ok (.dense shape data)
  | .sparse b => b.build

/-- The loop of `decode` that builds the COO tensors, `recordio_protobuf_reader.cc` 317-334. -/
def buildAll {V : Type} : List (Slot V) → Res (List (PTensorOut V))
  | [] => .ok []
  | s :: ss =>
    match s.build with
    | .err e => .err e
    | .ub w => .ub w
    | .ok t =>
      match buildAll ss with
      | .ok ts => .ok (t :: ts)
      | .err e => .err e
      | .ub w => .ub w

/-- An example. -/
structure ProtoExample (V : Type) where
  features : List (PTensorOut V)
  padding : Nat
  deriving DecidableEq, Repr

/-- The end of `decode`, `recordio_protobuf_reader.cc` 299-341. -/
def protoExample {V : Type} (size : Nat) : Res (Option Nat × List (Slot V)) → Res (Option (ProtoExample V))
  | .err e => .err e
  | .ub w => .ub w
  | .ok (none, _) => .ok none
  | .ok (some n, ss) =>
    match buildAll ss with
    | .ok ts => .ok (some ⟨ts, size - n⟩)
    | .err e => .err e
    | .ub w => .ub w

/-- `Recordio_protobuf_reader::decode`, `recordio_protobuf_reader.cc` 265-341, when it runs serially: for a batch of size
`size` with the given instances. -/
def protoDecode {V : Type} (zero : V) (h : BadHandling) (s : Schema) (size : Nat) (rs : List (Option (PRecord V))) :
    Res (Option (ProtoExample V)) :=
  match initSlots zero size s.attrs with
  | .err e => .err e
  | .ub w => .ub w
  | .ok ss => protoExample size (protoSerial h s rs 0 ss)

/-! ## Decoding in parallel -/

section

variable {V : Type}

/-- Writes of several instances: the row, the attribute and what is written. -/
def writeRowsTo : List (Slot V) → List (Nat × Nat × PWrite V) → Res (List (Slot V))
  | ss, [] => .ok ss
  | ss, (row, w) :: ws =>
    match writeSlots row ss [w] with
    | .ok ss' => writeRowsTo ss' ws
    | .err e => .err e
    | .ub u => .ub u

/-- The worker of `decode_parallel`, `recordio_protobuf_reader.cc` 388-404, on a sub-range: its writes in order, and how
it ends. -/
def protoTask (h : BadHandling) (s : Schema) : List (Nat × Option (PRecord V)) → List (Nat × Nat × PWrite V) × TaskEnd
  | [] => ([], .done)
  | (row, r) :: rs =>
    let ws := (recordRun (h == .error) s r).1.map fun w => (row, w)
    match (recordRun (h == .error) s r).2 with
    | .err e => (ws, .threw e)
    | .ub w => (ws, .ub w)
    | .ok true => (ws ++ (protoTask h s rs).1, (protoTask h s rs).2)
    | .ok false => if h = .skip ∨ h = .skipWarn then (ws, .skipped) else (ws, .threw .invalidArgument)

/-- The instances with their rows, as `decode_parallel` zips them, `recordio_protobuf_reader.cc` 377-386. -/
def numbered {α : Type} (rs : List α) : List (Nat × α) := rs.zipIdx.map fun x => (x.2, x.1)

/-- The possible outcomes of `decode_parallel`, `recordio_protobuf_reader.cc` 370-413, see `DecodePrl`.  The copies to
different rows of a tensor are taken as single steps. -/
inductive ProtoPrl (h : BadHandling) (s : Schema) (rs : List (Option (PRecord V))) (ss : List (Slot V)) :
    Res (Option Nat × List (Slot V)) → Prop where
  | finished (blocks : List (List (Nat × Option (PRecord V)))) (ws : List (Nat × Nat × PWrite V)) (ss' : List (Slot V))
      (hb : blocks.flatten = numbered rs)
      (hw : Interleaved (blocks.map fun b => (protoTask h s b).1) ws)
      (he : ∀ b ∈ blocks, (protoTask h s b).2 = .done ∨ (protoTask h s b).2 = .skipped)
      (hss : writeRowsTo ss ws = .ok ss') :
      ProtoPrl h s rs ss
        (.ok (if blocks.any (fun b => (protoTask h s b).2 == .skipped) then none else some rs.length, ss'))
  | threw (blocks : List (List (Nat × Option (PRecord V)))) (b : List (Nat × Option (PRecord V))) (e : Err)
      (hb : blocks.flatten = numbered rs) (hm : b ∈ blocks) (he : (protoTask h s b).2 = .threw e) :
      ProtoPrl h s rs ss (.err e)
  | ub (blocks : List (List (Nat × Option (PRecord V)))) (ws : List (Nat × Nat × PWrite V)) (w : String)
      (hb : blocks.flatten = numbered rs)
      (hw : Interleaved (blocks.map fun b => (protoTask h s b).1) ws)
      (hu : writeRowsTo ss ws = .ub w ∨ ∃ b ∈ blocks, (protoTask h s b).2 = .ub w) :
      ProtoPrl h s rs ss (.ub w)

/-- `num_values_per_instance_`, `recordio_protobuf_reader.cc` 155-161.  (All attributes have a batch dimension.) -/
def valuesPerInstance (s : Schema) : Nat :=
  ((s.attrs.filter fun a => !a.sparse).map fun a => asSize (a.strides.headD 0)).sum % 2 ^ 64

/-- `should_run_serial`, `recordio_protobuf_reader.cc` 273-287, with `has_sparse_feature_`, 234-237. -/
def protoRunsSerially (h : BadHandling) (s : Schema) (n : Nat) : Bool :=
  s.attrs.any (fun a => a.sparse) || h == .pad || h == .padWarn || valuesPerInstance s * n % 2 ^ 64 < 10000000

/-- `Recordio_protobuf_reader::decode`, `recordio_protobuf_reader.cc` 265-341: the possible outcomes for a batch of size
`size` with the given messages. -/
def ProtoBatch (zero : V) (h : BadHandling) (s : Schema) (size : Nat) (rs : List (Option (PRecord V)))
    (o : Res (Option (ProtoExample V))) : Prop :=
  if protoRunsSerially h s rs.length then o = protoDecode zero h s size rs
  else
    match initSlots zero size s.attrs with
    | .err e => o = .err e
    | .ub w => o = .ub w
    | .ok ss => ∃ r, ProtoPrl h s rs ss r ∧ o = protoExample size r

end

end Mlio
