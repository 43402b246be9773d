import Verif.Model.Tensor

/-!
# Attributes, schemas and examples: `src/mlio/schema.cc`, `src/mlio/example.cc`

`std::unordered_map` is an association list with at most one entry per key.
-/

namespace Mlio

/-- `Attribute`, `include/mlio/schema.h` 40-83. -/
structure Attr where
  name : Bytes
  dt : DataType
  shape : List Nat
  strides : List Int
  sparse : Bool
  deriving Repr

/-- `Attribute::Attribute`, `src/mlio/schema.cc` 33-51. -/
def makeAttr (name : Bytes) (dt : DataType) (shape : List Nat) (strides : List Int) (sparse : Bool) : Res Attr :=
  match tensorStrides shape strides with
  | .ok ss => .ok ⟨name, dt, shape, ss, sparse⟩
  | .err e => .err e
  | .ub w => .ub w

/-- `operator==(const Attribute &, const Attribute &)`, `schema.cc` 64-69. -/
def Attr.eq (a b : Attr) : Bool :=
  a.name == b.name && a.dt == b.dt && a.sparse == b.sparse && a.shape == b.shape && a.strides == b.strides

/-- `Schema`, `schema.h` 102-119. -/
structure Schema where
  attrs : List Attr
  index : List (Bytes × Nat)
  deriving Repr

/-- The loop of `Schema::Schema`, `schema.cc` 73-82; `emplace` keeps an existing entry and reports it. -/
def schemaLoop : List Attr → (idx : Nat) → List (Bytes × Nat) → Res (List (Bytes × Nat))
  | [], _, m => .ok m
  | a :: as, idx, m =>
    match m.lookup a.name with
    | some _ => .err .invalidArgument
    | none => schemaLoop as (idx + 1) ((a.name, idx) :: m)

/-- `Schema::Schema`, `schema.cc` 71-83. -/
def makeSchema (attrs : List Attr) : Res Schema :=
  match schemaLoop attrs 0 [] with
  | .ok m => .ok ⟨attrs, m⟩
  | .err e => .err e
  | .ub w => .ub w

/-- `Schema::get_index`, `schema.cc` 85-92. -/
def Schema.getIndex (s : Schema) (name : Bytes) : Option Nat := s.index.lookup name

/-- `operator==` of vectors of attributes. -/
def attrsEq : List Attr → List Attr → Bool
  | [], [] => true
  | a :: as, b :: bs => a.eq b && attrsEq as bs
  | _, _ => false

/-- `operator==(const Schema &, const Schema &)`, `schema.cc` 99-102. -/
def Schema.eq (s t : Schema) : Bool := attrsEq s.attrs t.attrs

/-- `std::hash` of the library types. -/
structure Hashes where
  str : Bytes → UInt64
  dt : DataType → UInt64
  bool : Bool → UInt64
  size : Nat → UInt64
  ssize : Int → UInt64

/-- `hash_combine`, `include/mlio/util/hash.h` 26-32. -/
def hashCombine (seed h : UInt64) : UInt64 := 
  seed ^^^ (h + (0x9e3779b9 : UInt64) + (seed <<< (6 : UInt64)) + (seed >>> (2 : UInt64)))

/-- `hash_range`, `hash.h` 34-52. -/
def hashRange {α : Type} (f : α → UInt64) (seed : UInt64) (xs : List α) : UInt64 :=
  xs.foldl (fun s x => hashCombine s (f x)) seed

/-- `std::hash<mlio::Attribute>`, `schema.cc` 109-121. -/
def Attr.hash (H : Hashes) (a : Attr) : UInt64 :=
  hashRange H.ssize (hashRange H.size
    (hashCombine (hashCombine (hashCombine 0 (H.str a.name)) (H.dt a.dt)) (H.bool a.sparse)) a.shape) a.strides

/-- `std::hash<mlio::Schema>`, `schema.h` 148-154. -/
def Schema.hash (H : Hashes) (s : Schema) : UInt64 := hashRange (Attr.hash H) 0 s.attrs

/-- `Example`, `include/mlio/example.h`: schema and features; `T` are the tensors. -/
structure Example (T : Type) where
  schema : Schema
  features : List T

/-- `Example::Example`, `src/mlio/example.cc` 32-39. -/
def newExample {T : Type} (s : Schema) (fs : List T) : Res (Example T) :=
  if s.attrs.length ≠ fs.length then .err .invalidArgument else .ok ⟨s, fs⟩

/-- `Example::find_feature`, `example.cc` 41-48; `features_[*idx]` is not checked. -/
def Example.findFeature {T : Type} (e : Example T) (name : Bytes) : Res (Option T) :=
  match e.schema.getIndex name with
  | none => .ok none
  | some i =>
    match e.features[i]? with
    | some t => .ok (some t)
    | none => .ub "index out of range"

end Mlio
