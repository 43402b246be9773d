import Verif.Spec.Instances

/-! # What a parallel reader should deliver -/

namespace Mlio.Spec

/-- What the batch reader does in one epoch: batches numbered from zero, then the end or an error. -/
structure Source {α : Type} (m : Machine (Batch α)) (s : m.σ) (bs : List (Batch α)) (t : Res (Option (Batch α))) : Prop where
  reads : m.ReadsTo s bs t
  index : ∀ (i : Nat) (b : Batch α), bs[i]? = some b → b.index = i
  tail : t = .ok none ∨ ∃ e, t = .err e

/-- The examples of the batches up to the first one whose decoding fails; batches decoded to nothing are left
out. -/
def examples {β ε : Type} (dec : β → Except Err (Option ε)) : List β → List ε
  | [] => []
  | b :: bs =>
    match dec b with
    | .ok (some e) => e :: examples dec bs
    | .ok none => examples dec bs
    | .error _ => []

/-- The dataset fails with `e`: reading the batches ends with `e` or some batch is decoded to `e`. -/
def Fails {β ε : Type} (dec : β → Except Err (Option ε)) (bs : List β) (t : Res (Option β)) (e : Err) : Prop :=
  t = .err e ∨ ∃ b ∈ bs, dec b = .error e

/-- The examples among the outcomes of a sequence of reads. -/
def delivered {ε : Type} (out : List (Res (Option ε))) : List ε :=
  out.filterMap fun o => match o with | .ok (some e) => some e | _ => none

end Mlio.Spec
