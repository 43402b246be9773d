import Verif.Spec.FailingStores
import Verif.Spec.Garbled

/-!
# Data stores that may or may not be in order
-/

namespace Mlio.Spec

/-- What a data store of text may be: in order, cut short, not well formed, or impossible to open. -/
def AnyTextStore (z : Inflater) (w : World) (t : TextStore) : Prop :=
  t.Good z w ∨ t.Cut z w ∨ t.Garbled z w ∨ CannotOpen w t.store

/-- What a data store of RecordIO may be: in order, cut short, damaged behind some frames, or impossible to open. -/
def AnyProtoStore (z : Inflater) (w : World) (t : ProtoStore) : Prop :=
  t.Good z w ∨ t.Cut z w ∨ BreaksAfter z w t.store t.frames

/-- What a data store of CSV may be. -/
def AnyCsvStore (z : Inflater) (w : World) (p : CsvParams) (t : CsvStore) : Prop :=
  t.Good z w p ∨ t.Cut z w p ∨ t.Garbled z w p ∨ CannotOpen w t.store

end Mlio.Spec

namespace Mlio

/-- The outcomes of reads (`true`) with resets (`false`) between them. -/
def Machine.script {α : Type} (m : Machine α) : List Bool → m.σ → List (Res (Option α))
  | [], _ => []
  | true :: as, s => (m.read s).1 :: m.script as (m.read s).2
  | false :: as, s => m.script as (m.reset s)

end Mlio
