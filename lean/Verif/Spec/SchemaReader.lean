import Verif.Model.SchemaReader
import Verif.Spec.DataReader

/-!
# What schema inference is meant to do
-/

namespace Mlio.Spec

/-- The end of the dataset, or an error. -/
def IsTail {β : Type} (t : Res (Option β)) : Prop := t = .ok none ∨ ∃ e, t = .err e

/-- The instances of one epoch (the first one, or one after a reset). -/
def EpochOf {α : Type} (r : Machine α) (xs : List α) (t : Res (Option α)) : Prop :=
  IsTail t ∧ ∃ s, (s = r.init ∨ ∃ u, s = r.reset u) ∧ r.Yields s xs t

/-- Every epoch gives instances and then the end or an error. -/
def Epochs {α : Type} (r : Machine α) : Prop :=
  (∃ xs t, IsTail t ∧ r.Yields r.init xs t) ∧ ∀ u, ∃ xs t, IsTail t ∧ r.Yields (r.reset u) xs t

/-- What inferring the schema may lead to: the error with which an epoch without instances begins, or what
`infer_schema` says, in some state of the reader, of the first instance of an epoch (of no instance if it has none). -/
def Explains {α S ι : Type} (r : Machine α) (infer : Infer α S ι) (o : Res (Option S)) : Prop :=
  ∃ xs t, EpochOf r xs t ∧
    ((xs = [] ∧ ∃ e, t = .err e ∧ o = .err e) ∨ ((xs = [] → t = .ok none) ∧ ∃ mem, (infer mem xs.head?).1 = o))

/-- How what the attempts to infer the schema have led to came about, one after the other, from the members `mem` on: an epoch that begins
with an error gives that error, with the members as they were; as long as there is no schema, `infer_schema` is asked about the first instance
of the present epoch, with the members as the attempt before has left them; once there is a schema, it is what every attempt gives. -/
inductive Attempts {α S ι : Type} (r : Machine α) (infer : Infer α S ι) (mem : ι) : List (Res (Option S)) → ι → Prop
  | none : Attempts r infer mem [] mem
  | failed {told m e} : Attempts r infer mem told m → EpochOf r [] (.err e) → (∀ s, .ok (some s) ∉ told) →
    Attempts r infer mem (told ++ [.err e]) m
  | asked {told m xs t} : Attempts r infer mem told m → EpochOf r xs t → (xs = [] → t = .ok none) → (∀ s, .ok (some s) ∉ told) →
    Attempts r infer mem (told ++ [(infer m xs.head?).1]) (infer m xs.head?).2
  | known {told m s} : Attempts r infer mem told m → .ok (some s) ∈ told → Attempts r infer mem (told ++ [.ok (some s)]) m

end Mlio.Spec
