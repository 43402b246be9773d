import Verif.Model.Wire

/-!
# The wire format of protobuf, and the messages of `recordio_protobuf.proto` in it
-/

namespace Mlio.Spec

/-! ## Which bytes are fields -/

/-- `Varint n bs`: the bytes are a number with seven bits in each byte, the lowest first; all bytes but the last have the highest bit set. -/
inductive Varint : Nat → Bytes → Prop
  | last (b : UInt8) : b.toNat < 128 → Varint b.toNat [b]
  | more (b : UInt8) {n bs} : 128 ≤ b.toNat → Varint n bs → Varint (b.toNat - 128 + 128 * n) (b :: bs)

/-- The type and the number of a field in front of it, in at most five bytes. -/
def Tag (number type : Nat) (bs : Bytes) : Prop :=
  ∃ t, Varint t bs ∧ bs.length ≤ 5 ∧ t % 2 ^ 32 = 8 * number + type ∧ type < 8 ∧ number ≠ 0

/-- The number that the bytes make up, the lowest byte first. -/
def LowFirst (n : Nat) (bs : Bytes) : Prop := n = (bs.zipIdx.map fun p => p.1.toNat * 256 ^ p.2).sum

/-- The value of a field with its type. -/
inductive OnWire : Nat → WireValue → Bytes → Prop
  | varint {n bs} : Varint n bs → bs.length ≤ 10 → OnWire 0 (.varint (n % 2 ^ 64)) bs
  | fixed64 {n bs} : LowFirst n bs → bs.length = 8 → OnWire 1 (.fixed64 n) bs
  | block {bs b} : Varint b.length bs → bs.length ≤ 5 → b.length < 2 ^ 31 - 16 → OnWire 2 (.block b) (bs ++ b)
  | fixed32 {n bs} : LowFirst n bs → bs.length = 4 → OnWire 5 (.fixed32 n) bs

/-- `Wire fs bs`: the bytes are a sequence of fields, `fs`, and groups, which are skipped. -/
inductive Wire : List (Nat × WireValue) → Bytes → Prop
  | nil : Wire [] []
  | field {number type v tb vb fs bs} : Tag number type tb → OnWire type v vb → Wire fs bs → Wire ((number, v) :: fs) (tb ++ vb ++ bs)
  | group {number tb eb inner ib fs bs} : Tag number 3 tb → Wire inner ib → Tag number 4 eb → Wire fs bs → Wire fs (tb ++ ib ++ eb ++ bs)

/-! ## How messages are written -/

/-- A number in as few bytes as possible. -/
def varint (n : Nat) : Bytes :=
  if n < 128 then [UInt8.ofNat n] else UInt8.ofNat (128 + n % 128) :: varint (n / 128)
termination_by n

/-- A number in `w` bytes. -/
def fixed : (w n : Nat) → Bytes
  | 0, _ => []
  | w + 1, n => UInt8.ofNat (n % 256) :: fixed w (n / 256)

/-- A field that holds bytes. -/
def block (number : Nat) (b : Bytes) : Bytes := varint (8 * number + 2) ++ varint b.length ++ b

/-- A packed field; an empty one is not written. -/
def packed (number : Nat) (enc : Nat → Bytes) (ns : List Nat) : Bytes := if ns = [] then [] else block number (ns.flatMap enc)

/-- How `int32` is written: negative numbers as numbers of 64 bits. -/
def int32 (n : Nat) : Bytes := varint (if n < 2 ^ 31 then n else n + (2 ^ 64 - 2 ^ 32))

/-- `Float32Tensor`, `Float64Tensor`, `Int32Tensor`. -/
def writeTensor (dt : DataType) (t : PTensor Nat) : Bytes :=
  packed 1 (if dt = .float32 then fixed 4 else if dt = .float64 then fixed 8 else int32) t.values ++ packed 2 varint t.keys ++ packed 3 varint t.shape

/-- `Value`. -/
def writeValue : PValue Nat → Bytes
  | .tensor dt t => block (if dt = .float32 then 2 else if dt = .float64 then 3 else 7) (writeTensor dt t)
  | .bytes => block 9 []
  | .unset => []

/-- An entry of the map `number`. -/
def writeEntry (number : Nat) (e : Bytes × PValue Nat) : Bytes := block number (block 1 e.1 ++ block 2 (writeValue e.2))

/-- A text that may be missing. -/
def writeText (number : Nat) : Option Bytes → Bytes
  | none => []
  | some x => block number x

/-- A message with its texts. -/
structure Msg where
  record : PRecord Nat
  uid : Option Bytes := none
  metadata : Option Bytes := none
  configuration : Option Bytes := none

/-- `Record`. -/
def Msg.write (m : Msg) : Bytes :=
  m.record.features.flatMap (writeEntry 1) ++ m.record.label.flatMap (writeEntry 2) ++ writeText 3 m.uid ++ writeText 4 m.metadata ++
    writeText 5 m.configuration

/-- A tensor of one of the three types, with values, keys and dimensions that the types have. -/
def PValueFits : PValue Nat → Prop
  | .tensor dt t =>
    (dt = .float32 ∨ dt = .float64 ∨ dt = .int32) ∧ (∀ v ∈ t.values, v < if dt = .float64 then 2 ^ 64 else 2 ^ 32) ∧
      (∀ k ∈ t.keys, k < 2 ^ 64) ∧ ∀ d ∈ t.shape, d < 2 ^ 64
  | _ => True

/-- A message that can be written: no name occurs twice, the numbers have their types, and there are less than 2 GiB. -/
structure Msg.Fits (m : Msg) : Prop where
  names : (m.record.features.map (·.1)).Nodup ∧ (m.record.label.map (·.1)).Nodup
  values : ∀ e ∈ m.record.features ++ m.record.label, PValueFits e.2
  size : m.write.length < 2 ^ 31 - 16

/-! ## Other ways to write them -/

/-- Fields that the reader uses: the entries of the two maps. -/
def inMaps (f : Nat × WireValue) : Bool :=
  match f with
  | (1, .block _) => true
  | (2, .block _) => true
  | _ => false

/-- A single value. -/
def single (dt : DataType) (n : Nat) : WireValue :=
  if dt = .float32 then .fixed32 n else if dt = .float64 then .fixed64 n else .varint (if n < 2 ^ 31 then n else n + (2 ^ 64 - 2 ^ 32))

/-- What a field adds to a tensor: numbers may be packed or written one by one, and other fields do not matter. -/
inductive Adds (dt : DataType) : Nat × WireValue → PTensor Nat → Prop
  | values (ns : List Nat) : (∀ n ∈ ns, n < if dt = .float64 then 2 ^ 64 else 2 ^ 32) →
      Adds dt (1, .block (ns.flatMap (if dt = .float32 then fixed 4 else if dt = .float64 then fixed 8 else int32))) ⟨ns, [], []⟩
  | value (n : Nat) : (n < if dt = .float64 then 2 ^ 64 else 2 ^ 32) → Adds dt (1, single dt n) ⟨[n], [], []⟩
  | keys (ns : List Nat) : (∀ n ∈ ns, n < 2 ^ 64) → Adds dt (2, .block (ns.flatMap varint)) ⟨[], ns, []⟩
  | key (n : Nat) : Adds dt (2, .varint n) ⟨[], [n], []⟩
  | shape (ns : List Nat) : (∀ n ∈ ns, n < 2 ^ 64) → Adds dt (3, .block (ns.flatMap varint)) ⟨[], [], ns⟩
  | dim (n : Nat) : Adds dt (3, .varint n) ⟨[], [], [n]⟩
  | other (number : Nat) (v : WireValue) : number ≠ 1 → number ≠ 2 → number ≠ 3 → Adds dt (number, v) ⟨[], [], []⟩

/-- A value behind another one in the same place: tensors of one type are joined; otherwise the second value counts, unless it is empty. -/
def merge : PValue Nat → PValue Nat → PValue Nat
  | v, .unset => v
  | .tensor d a, .tensor d' b => if d = d' then .tensor d ⟨a.values ++ b.values, a.keys ++ b.keys, a.shape ++ b.shape⟩ else .tensor d' b
  | _, w => w

/-- A part of an entry: its name or a value. -/
def writePart : Bytes ⊕ PValue Nat → Bytes
  | .inl name => block 1 name
  | .inr v => block 2 (writeValue v)

/-- The name and the value of an entry of several parts. -/
def joinParts (parts : List (Bytes ⊕ PValue Nat)) : Bytes × PValue Nat :=
  parts.foldl (fun e p => match p with | .inl name => (name, e.2) | .inr v => (e.1, merge e.2 v)) ([], .unset)

/-- The bytes are numbers, one after another. -/
inductive Varints : Bytes → Prop
  | nil : Varints []
  | cons {n b bs} : Varint n b → b.length ≤ 10 → Varints bs → Varints (b ++ bs)

/-- A member of a value that is not well formed: `number` says which one. -/
inductive Broken : Nat → Bytes → Prop
  /-- no fields -/
  | fields {number b} : number = 2 ∨ number = 3 ∨ number = 7 ∨ number = 9 → (¬ ∃ fs, Wire fs b) → Broken number b
  /-- values that are cut -/
  | values32 {fs b x} : Wire fs b → (1, .block x) ∈ fs → x.length % 4 ≠ 0 → Broken 2 b
  | values64 {fs b x} : Wire fs b → (1, .block x) ∈ fs → x.length % 8 ≠ 0 → Broken 3 b
  | valuesInt {fs b x} : Wire fs b → (1, .block x) ∈ fs → ¬ Varints x → Broken 7 b
  /-- keys or dimensions that are cut -/
  | wholes {number k fs b x} : number = 2 ∨ number = 3 ∨ number = 7 → k = 2 ∨ k = 3 → Wire fs b → (k, .block x) ∈ fs → ¬ Varints x → Broken number b

end Mlio.Spec
