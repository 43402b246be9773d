import Verif.Model.ProtoReader

/-!
# The bits of an instance as a protobuf message

`Recordio_protobuf_reader::parse_proto` (`recordio_protobuf_reader.cc` 415-421) with the messages of `recordio_protobuf.proto`.  The code of the parser is generated by, and
part of, the protobuf library: what follows is the published wire format, as the library reads it, applied to the fields that `recordio_protobuf.proto` declares.  Numbers are given by
their bits: a `float` by 32, a `double` by 64, an `int32` by 32 bits.  Left out: the limit on nested groups.  Strings need not be UTF-8 (`proto2`).
-/

namespace Mlio

/-- A number of at most `k` bytes with seven bits each, the lowest first; all bytes but the last have the highest bit set. -/
def readVarint : (k : Nat) → Bytes → Option (Nat × Bytes)
  | 0, _ => none
  | _ + 1, [] => none
  | k + 1, b :: bs =>
    if b.toNat < 128 then some (b.toNat, bs)
    else
      match readVarint k bs with
      | some (n, rest) => some (b.toNat - 128 + 128 * n, rest)
      | none => none

/-- The number whose bytes are given, the lowest first. -/
def lowFirst : Bytes → Nat
  | [] => 0
  | b :: bs => b.toNat + 256 * lowFirst bs

/-- The value of a field. -/
inductive WireValue where
  | varint (n : Nat)
  | fixed64 (n : Nat)
  | block (b : Bytes)
  | fixed32 (n : Nat)
  deriving DecidableEq, Repr

/-- The value behind a tag with the given type; the library reads numbers modulo `2 ^ 64`, and refuses blocks of more than `2 ^ 31 - 17` bytes. -/
def readWireValue (type : Nat) (bs : Bytes) : Option (WireValue × Bytes) :=
  if type = 0 then
    match readVarint 10 bs with
    | some (n, rest) => some (.varint (n % 2 ^ 64), rest)
    | none => none
  else if type = 1 then
    if bs.length < 8 then none else some (.fixed64 (lowFirst (bs.take 8)), bs.drop 8)
  else if type = 2 then
    match readVarint 5 bs with
    | some (n, rest) => if n < 2 ^ 31 - 16 ∧ n ≤ rest.length then some (.block (rest.take n), rest.drop n) else none
    | none => none
  else if type = 5 then
    if bs.length < 4 then none else some (.fixed32 (lowFirst (bs.take 4)), bs.drop 4)
  else none

/-- The fields of a message, with their numbers, in order.  `groups` are the groups that are open: no message of `recordio_protobuf.proto` has groups, so that their fields are
unknown ones, which are skipped. -/
def readFields : (fuel : Nat) → (groups : List Nat) → Bytes → Option (List (Nat × WireValue))
  | _, groups, [] => if groups = [] then some [] else none
  | 0, _, _ => none
  | fuel + 1, groups, bs =>
    match readVarint 5 bs with
    | none => none
    | some (t, rest) =>
      let tag := t % 2 ^ 32
      if tag / 8 = 0 then none
      else if tag % 8 = 3 then readFields fuel (tag / 8 :: groups) rest
      else if tag % 8 = 4 then
        match groups with
        | [] => none
        | g :: gs => if g = tag / 8 then readFields fuel gs rest else none
      else
        match readWireValue (tag % 8) rest with
        | none => none
        | some (v, rest') =>
          match readFields fuel groups rest' with
          | none => none
          | some fs => some (if groups = [] then (tag / 8, v) :: fs else fs)

/-- The fields of a message. -/
def wireFields (bs : Bytes) : Option (List (Nat × WireValue)) := readFields bs.length [] bs

/-- The numbers in a packed field of `uint64` or `int32`. -/
def packedVarints : (fuel : Nat) → Bytes → Option (List Nat)
  | _, [] => some []
  | 0, _ => none
  | fuel + 1, bs =>
    match readVarint 10 bs with
    | none => none
    | some (n, rest) =>
      match packedVarints fuel rest with
      | none => none
      | some ns => some (n % 2 ^ 64 :: ns)

/-- The numbers in a packed field of `float` or `double`, which have `w` bytes. -/
def packedFixed (w : Nat) : (fuel : Nat) → Bytes → Option (List Nat)
  | _, [] => some []
  | 0, _ => none
  | fuel + 1, bs =>
    if bs.length < w then none
    else
      match packedFixed w fuel (bs.drop w) with
      | none => none
      | some ns => some (lowFirst (bs.take w) :: ns)

/-- The numbers of a field `keys` or `shape`, packed or not; a value of another type is an unknown field. -/
def wholes : WireValue → Option (List Nat)
  | .block b => packedVarints b.length b
  | .varint n => some [n]
  | _ => some []

/-- The numbers of a field `values`, `recordio_protobuf.proto` 12, 30, 48. -/
def valuesOf (dt : DataType) : WireValue → Option (List Nat)
  | .block b =>
    if dt = .float32 then packedFixed 4 b.length b
    else if dt = .float64 then packedFixed 8 b.length b
    else
      match packedVarints b.length b with
      | none => none
      | some ns => some (ns.map (· % 2 ^ 32))
  | .fixed32 n => some (if dt = .float32 then [n] else [])
  | .fixed64 n => some (if dt = .float64 then [n] else [])
  | .varint n => some (if dt = .int32 then [n % 2 ^ 32] else [])

/-- A field of `Float32Tensor`, `Float64Tensor` and `Int32Tensor`, `recordio_protobuf.proto` 9-63. -/
def tensorField (dt : DataType) (t : PTensor Nat) (f : Nat × WireValue) : Option (PTensor Nat) :=
  if f.1 = 1 then
    match valuesOf dt f.2 with
    | none => none
    | some ns => some { t with values := t.values ++ ns }
  else if f.1 = 2 then
    match wholes f.2 with
    | none => none
    | some ns => some { t with keys := t.keys ++ ns }
  else if f.1 = 3 then
    match wholes f.2 with
    | none => none
    | some ns => some { t with shape := t.shape ++ ns }
  else some t

/-- The fields of a message, one after another. -/
def eachField {α : Type} (step : α → Nat × WireValue → Option α) : α → List (Nat × WireValue) → Option α
  | a, [] => some a
  | a, f :: fs =>
    match step a f with
    | none => none
    | some a' => eachField step a' fs

/-- A message that is merged in `a`. -/
def readMessage {α : Type} (step : α → Nat × WireValue → Option α) (a : α) (bs : Bytes) : Option α :=
  match wireFields bs with
  | none => none
  | some fs => eachField step a fs

/-- The tensor of the type that the value has already. -/
def PValue.tensorOr (v : PValue Nat) (dt : DataType) : PTensor Nat :=
  match v with
  | .tensor d t => if d = dt then t else ⟨[], [], []⟩
  | _ => ⟨[], [], []⟩

/-- A member of the `oneof` of `Value`, `recordio_protobuf.proto` 77-87: the same one again is merged, another one replaces it. -/
def valueField (v : PValue Nat) (f : Nat × WireValue) : Option (PValue Nat) :=
  match f.2 with
  | .block b =>
    if f.1 = 2 then
      match readMessage (tensorField .float32) (v.tensorOr .float32) b with
      | none => none
      | some t => some (.tensor .float32 t)
    else if f.1 = 3 then
      match readMessage (tensorField .float64) (v.tensorOr .float64) b with
      | none => none
      | some t => some (.tensor .float64 t)
    else if f.1 = 7 then
      match readMessage (tensorField .int32) (v.tensorOr .int32) b with
      | none => none
      | some t => some (.tensor .int32 t)
    else if f.1 = 9 then
      match wireFields b with
      | none => none
      | some _ => some .bytes
    else some v
  | _ => some v

/-- A field of an entry of a map: the key is 1, the value 2. -/
def entryField (e : Bytes × PValue Nat) (f : Nat × WireValue) : Option (Bytes × PValue Nat) :=
  match f.2 with
  | .block b =>
    if f.1 = 1 then some (b, e.2)
    else if f.1 = 2 then
      match readMessage valueField e.2 b with
      | none => none
      | some v => some (e.1, v)
    else some e
  | _ => some e

/-- An entry in a map: the last value of a key counts. -/
def putEntry (es : List (Bytes × PValue Nat)) (e : Bytes × PValue Nat) : List (Bytes × PValue Nat) :=
  match es with
  | [] => [e]
  | x :: xs => if x.1 = e.1 then e :: xs else x :: putEntry xs e

/-- A field of `Record`, `recordio_protobuf.proto` 89-126: the texts 3, 4 and 5 are not used. -/
def recordField (r : PRecord Nat) (f : Nat × WireValue) : Option (PRecord Nat) :=
  match f.2 with
  | .block b =>
    if f.1 = 1 then
      match readMessage entryField ([], .unset) b with
      | none => none
      | some e => some { r with features := putEntry r.features e }
    else if f.1 = 2 then
      match readMessage entryField ([], .unset) b with
      | none => none
      | some e => some { r with label := putEntry r.label e }
    else some r
  | _ => some r

/-- `Record::ParseFromArray`: the message in the given bytes. -/
def parseRecord (bs : Bytes) : Option (PRecord Nat) := readMessage recordField ⟨[], []⟩ bs

/-- `parse_proto`, `recordio_protobuf_reader.cc` 415-421.  The size is converted to `int`; the library takes a negative one for a number of more than `2 ^ 63` bytes. -/
def parseProto (bits : Bytes) : Res (Option (PRecord Nat)) :=
  if bits.length % 2 ^ 32 < 2 ^ 31 then .ok (parseRecord (bits.take (bits.length % 2 ^ 32)))
  else .ub "negative size"

/-- The message of an instance, if it has less than 2 GiB. -/
def protoMessage (bits : Bytes) : Option (PRecord Nat) :=
  match parseProto bits with
  | .ok m => m
  | _ => none

end Mlio
