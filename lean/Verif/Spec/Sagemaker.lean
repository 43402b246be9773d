import Verif.Model.Sagemaker

/-!
# Exclusive use of a channel
-/

namespace Mlio.Spec

/-- The stream holds the channel: it was constructed and is neither closed nor destructed. -/
def HoldsChannel (st : SmStream) : Prop := st.phase = .made ∨ st.phase = .opened

/-- At most one stream holds each channel. -/
def Exclusive (s : SmState) : Prop :=
  ∀ (i j : Nat) (a b : SmStream), s.streams[i]? = some a → s.streams[j]? = some b → HoldsChannel a → HoldsChannel b →
    a.path = b.path → i = j

/-- The numbers of the FIFOs of a channel that were opened, in order. -/
def numbersOf (s : SmState) (path : Bytes) : List Int := (s.used.filter (·.1 = path)).map (·.2)

/-- A history in which no stream is constructed for a channel while an earlier one is closed but not yet destructed,
and `ok` holds of the number a stream is constructed with, in the state it is constructed in. -/
def Careful (ok : SmState → Bytes → Option Nat → Prop) : SmState → List SmOp → Prop
  | _, [] => True
  | s, o :: os =>
    (match o with
      | .make path fifo => (∀ st ∈ s.streams, st.path = path → st.phase ≠ .closed) ∧ ok s path fifo
      | _ => True) ∧
    match s.step o with
    | some (s', _) => Careful ok s' os
    | none => Careful ok s os

/-- Numbers that are given are larger than those used so far. -/
def FreshNumbers (s : SmState) (path : Bytes) (fifo : Option Nat) : Prop :=
  ∀ n, fifo = some n → n < 2 ^ 63 ∧ ∀ m ∈ numbersOf s path, m < n

end Mlio.Spec
