import Verif.Spec.CoreReader
import Verif.Model.CoreErrors

/-!
# Where reading of a dataset fails
-/

namespace Mlio.Spec

/-- The data store `k` is the first that cannot be read to its end, and `n` is the number of the record that cannot be read, from zero: as many as
could be read. -/
def FailsAt (cs : List Content) (k n : Nat) (e : Err) : Prop :=
  (∀ j c, j < k → cs[j]? = some c → c.stops = false) ∧
  ((cs[k]? = some (.unreadable e) ∧ n = 0) ∨ ∃ rs, cs[k]? = some (.records rs (some e)) ∧ rs.length = n)

/-- What is to be said about an error in record `n` of data store `k`. -/
def Says (e : Err) (k n : Nat) : CoreMsg → Prop
  | .tooLarge k' n' => e = .recordTooLarge ∧ k' = k ∧ n' = n
  | .corrupt k' n' => (e = .corruptRecord ∨ e = .corruptHeader ∨ e = .corruptFooter) ∧ k' = k ∧ n' = n
  | .corruptData k' => (e = .streamError ∨ e = .inflateError) ∧ k' = k
  | .cannotRead k' => e = .notSupported ∧ k' = k
  | .system k' => e = .systemError ∧ k' = k

/-- The states of a machine that reads and resets lead to. -/
inductive Occurs {α : Type} (m : Machine α) : m.σ → Prop where
  | init : Occurs m m.init
  | read {s} : Occurs m s → Occurs m (m.read s).2
  | reset {s} : Occurs m s → Occurs m (m.reset s)

end Mlio.Spec
