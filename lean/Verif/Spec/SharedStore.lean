import Verif.Model.SharedStore

/-!
# Races on data stores
-/

namespace Mlio.Spec

/-- Two threads are about to access the same memory, one of them to write it, and not both with a lock held: undefined in C++. -/
def StoreRace (stores : Nat → AnyStore) (s : StoreState) (c : StoreCell) : Prop :=
  ∃ t u m n w w' l l', t ≠ u ∧ (s.todo t).head? = some m ∧ (s.todo u).head? = some n ∧ m.access stores s = some (c, w, l) ∧
    n.access stores s = some (c, w', l') ∧ (w = true ∨ w' = true) ∧ ¬ (l = true ∧ l' = true)

/-- The name of the data store is computed by the first call of `id`. -/
def NameComputed : AnyStore → Prop
  | .memory .. => True
  | .object _ v _ => v ≠ []
  | _ => False

/-- What a careful program does: it uses no data stores written in Python, opens each SageMaker pipe from one thread only
(`owner`), and only pipes on channels that have been opened before threads were started. -/
def CarefulCall (stores : Nat → AnyStore) (known : List Bytes) (owner : Nat → Nat) (t : Nat) : StoreCall → Prop
  | .id k => ∀ name, stores k ≠ .python name
  | .openRead k => (∀ name, stores k ≠ .python name) ∧ ∀ path c, stores k = .pipe path c → owner k = t ∧ path ∈ known

end Mlio.Spec
