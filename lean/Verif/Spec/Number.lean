import Verif.Model.Number

/-! # Decimal integers as text, written down independently of the parsers -/

namespace Mlio.Spec

/-- White space: space, tab, LF, VT, FF, CR. -/
def White (b : Bytes) : Prop := ∀ c ∈ b, c ∈ ([32, 9, 10, 11, 12, 13] : List UInt8)

instance (b : Bytes) : Decidable (White b) := by unfold White; infer_instance

inductive Sign where
  | none | plus | minus
  deriving DecidableEq, Repr

def Sign.bytes : Sign → Bytes
  | .none => []
  | .plus => [43]
  | .minus => [45]

/-- Value of a digit string. -/
def digitsValue (ds : List (Fin 10)) : Nat := ds.foldl (fun v d => 10 * v + d.val) 0

/-- A decimal integer in text: white space, a sign, at least one digit, white space. -/
structure IntText where
  pre : Bytes
  sign : Sign
  digits : List (Fin 10)
  post : Bytes

structure IntText.Valid (t : IntText) : Prop where
  pre : White t.pre
  digits : t.digits ≠ []
  post : White t.post

def IntText.bytes (t : IntText) : Bytes :=
  t.pre ++ t.sign.bytes ++ t.digits.map (fun d => UInt8.ofNat (48 + d.val)) ++ t.post

def IntText.value (t : IntText) : Int :=
  if t.sign = .minus then -(digitsValue t.digits : Int) else digitsValue t.digits

/-- The range of an integer type of the given width. -/
def InRange (signed : Bool) (bits : Nat) (v : Int) : Prop :=
  if signed then -2 ^ (bits - 1) ≤ v ∧ v < 2 ^ (bits - 1) else 0 ≤ v ∧ v < 2 ^ bits

instance (signed : Bool) (bits : Nat) (v : Int) : Decidable (InRange signed bits v) := by
  unfold InRange; infer_instance

/-- The integer types of columns: whether they are signed, and their width. -/
inductive IntegerType : DataType → Bool → Nat → Prop
  | int8 : IntegerType .int8 true 8
  | int16 : IntegerType .int16 true 16
  | int32 : IntegerType .int32 true 32
  | int64 : IntegerType .int64 true 64
  | uint8 : IntegerType .uint8 false 8
  | uint16 : IntegerType .uint16 false 16
  | uint32 : IntegerType .uint32 false 32
  | uint64 : IntegerType .uint64 false 64
  | size : IntegerType .size false 64

/-- The text is an integer, and one of the given type. -/
def IsInteger (signed : Bool) (bits : Nat) (s : Bytes) : Prop :=
  ∃ t : IntText, t.Valid ∧ t.bytes = s ∧ InRange signed bits t.value

/-- The kind of a text: an integer of 64 bits, else an unsigned one, else a finite number (as `finite` tells for text
that is not empty), else just text. -/
inductive TextKind (finite : Bytes → Prop) (s : Bytes) : DataType → Prop
  | int : IsInteger true 64 s → TextKind finite s .int64
  | uint : ¬ IsInteger true 64 s → IsInteger false 64 s → TextKind finite s .uint64
  | float : ¬ IsInteger true 64 s → ¬ IsInteger false 64 s → s ≠ [] → finite s → TextKind finite s .float64
  | text : ¬ IsInteger true 64 s → ¬ IsInteger false 64 s → (s = [] ∨ ¬ finite s) → TextKind finite s .string

end Mlio.Spec
