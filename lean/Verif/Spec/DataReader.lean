import Verif.Model.DataReader
import Verif.Spec.Pipeline

/-!
# What the interface of data readers is meant to do
-/

namespace Mlio.Spec

variable {ε : Type}

/-- The number of examples consumed by the calls. -/
def consumed (hist : List (ReadCall × Res (Option ε))) : Nat :=
  hist.countP fun x => match x with | (.read, .ok (some _)) => true | _ => false

/-- What the calls return, for a dataset with the examples `all` that may fail with errors: the next example that
is not consumed; the end only if all are consumed and nothing fails; an error only if the dataset has it; after the end or an
error the same again. -/
structure Session (all : List ε) (fails : Err → Prop) (hist : List (ReadCall × Res (Option ε))) : Prop where
  next : ∀ i c e, hist[i]? = some (c, .ok (some e)) → all[consumed (hist.take i)]? = some e
  ends : ∀ i c, hist[i]? = some (c, .ok none) → consumed (hist.take i) = all.length ∧ ∀ e, ¬ fails e
  error : ∀ (i : Nat) c e, hist[i]? = some (c, Res.err e) → fails e
  defined : ∀ (i : Nat) c w, hist[i]? ≠ some (c, Res.ub w)
  sticky : ∀ (i j : Nat) c (o : Res (Option ε)) c' o', hist[i]? = some (c, o) → (∀ e, o ≠ .ok (some e)) → i ≤ j → hist[j]? = some (c', o') → o' = o

/-- The number of examples that the calls have returned, without those returned twice: the consumed ones, and the one the
last call has peeked at. -/
def shown (hist : List (ReadCall × Res (Option ε))) : Nat :=
  consumed hist + match hist.getLast? with | some (.peek, .ok (some _)) => 1 | _ => 0

open Classical in
/-- The batches that are decoded to an example. -/
noncomputable def fruitful {β : Type} (dec : β → Except Err (Option ε)) (bs : List β) : List β :=
  bs.filter fun b => decide (∃ e, dec b = .ok (some e))

/-- The number of bytes of the instances of the batches. -/
def bytesOf {α : Type} (size : α → Nat) (bs : List (Batch α)) : Nat := ((bs.flatMap fun b => b.instances).map size).sum

end Mlio.Spec
