import Verif.Spec.Instances
import Verif.Model.CoreReader

/-!
# Instances of a dataset

What the instances of a list of data stores are, without record readers, loops or flags.
-/

namespace Mlio.Spec

/-- What a data store holds: one instance (the store itself), records – possibly followed by a permanent
read error – or nothing readable. -/
inductive Content where
  | whole
  | records (rs : List Record) (broken : Option Err)
  | unreadable (e : Err)

/-- An item of the dataset: a whole store or a record. -/
inductive Item where
  | whole
  | part (r : Record)
  deriving DecidableEq

/-- How the dataset ends: at the end of the last store, or with an error that no read gets past. -/
inductive Stop where
  | eof
  | fail (e : Err)
  deriving DecidableEq

/-- The items of the stores `cs`, numbered from `k`, in order, up to the first read error. -/
def items (k : Nat) : List Content → List (Nat × Item) × Stop
  | [] => ([], .eof)
  | .whole :: cs => ((k, .whole) :: (items (k + 1) cs).1, (items (k + 1) cs).2)
  | .records rs none :: cs => (rs.map (fun r => (k, .part r)) ++ (items (k + 1) cs).1, (items (k + 1) cs).2)
  | .records rs (some e) :: _ => (rs.map (fun r => (k, .part r)), .fail e)
  | .unreadable e :: _ => ([], .fail e)

/-- How reading of instances ends. -/
inductive End where
  | eof
  | fail (e : Err)
  | corruptSplit
  | cutSplit
  deriving DecidableEq

/-- `Assembles stop its is e`: the items `its`, followed by `stop`, consist of the instances `is` (store and
bits), and after them reading ends with `e`. -/
inductive Assembles (stop : Stop) : List (Nat × Item) → List (Nat × Option Bytes) → End → Prop
  /-- end of the dataset -/
  | eof : stop = .eof → Assembles stop [] [] .eof
  /-- a read error -/
  | fail (e) : stop = .fail e → Assembles stop [] [] (.fail e)
  /-- a store that is an instance -/
  | whole {k rest is e} : Assembles stop rest is e → Assembles stop ((k, .whole) :: rest) ((k, none) :: is) e
  /-- a complete record -/
  | complete {k p rest is e} : Assembles stop rest is e →
      Assembles stop ((k, .part ⟨0, p⟩) :: rest) ((k, some p) :: is) e
  /-- a begin part, any number of middle parts, an end part: one instance, attributed to the store with
  the end part -/
  | split {k p k' p' rest is e} (mids : List (Nat × Bytes)) : Assembles stop rest is e →
      Assembles stop ((k, .part ⟨1, p⟩) :: (mids.map (fun q => (q.1, .part ⟨2, q.2⟩)) ++
          (k', .part ⟨3, p'⟩) :: rest))
        ((k', some (p ++ (mids.map (·.2)).flatten ++ p')) :: is) e
  /-- a part that can only follow another part -/
  | badStart {k r rest} : r.kind ≠ 0 → r.kind ≠ 1 → Assembles stop ((k, .part r) :: rest) [] .corruptSplit
  /-- parts followed by something that does not continue them -/
  | badNext {k p i rest} (mids : List (Nat × Bytes)) :
      (∀ r, i.2 = .part r → r.kind ≠ 2 ∧ r.kind ≠ 3) →
      Assembles stop ((k, .part ⟨1, p⟩) :: (mids.map (fun q => (q.1, .part ⟨2, q.2⟩)) ++ i :: rest)) [] .corruptSplit
  /-- parts cut by the end of the dataset -/
  | cut {k p} (mids : List (Nat × Bytes)) : stop = .eof →
      Assembles stop ((k, .part ⟨1, p⟩) :: mids.map (fun q => (q.1, .part ⟨2, q.2⟩))) [] .cutSplit
  /-- parts cut by a read error -/
  | cutFail {k p} (e) (mids : List (Nat × Bytes)) : stop = .fail e →
      Assembles stop ((k, .part ⟨1, p⟩) :: mids.map (fun q => (q.1, .part ⟨2, q.2⟩))) [] (.fail e)

/-- Instances are numbered within the store they are attributed to. -/
def number (seen : List Nat) : List (Nat × Option Bytes) → List Inst
  | [] => []
  | (k, none) :: is => ⟨k, 0, none⟩ :: number (seen ++ [k]) is
  | (k, some p) :: is => ⟨k, seen.count k, some p⟩ :: number (seen ++ [k]) is

/-- A store's factory outcome fits its content. -/
def Fits (rm : Machine Record) : Res (Option rm.σ) → Content → Prop
  | .ok none, .whole => True
  | .ok (some r), .records rs none => rm.Yields r rs (.ok none)
  | .ok (some r), .records rs (some e) => rm.Yields r rs (.err e)
  | .err e, .unreadable e' => e = e'
  | _, _ => False

/-- Nothing can be read behind this content. -/
def Content.stops : Content → Bool
  | .records _ (some _) => true
  | .unreadable _ => true
  | _ => false

/-- The dataset fits the contents.  Stores behind one that cannot be read to its end may be left out of `cs`: they can be
anything. -/
def FitsAll (rm : Machine Record) (stores : List (Res (Option rm.σ))) (cs : List Content) : Prop :=
  (stores.length = cs.length ∨ cs.length < stores.length ∧ ∃ c ∈ cs, c.stops = true) ∧
  ∀ (i : Nat) (o : Res (Option rm.σ)) (c : Content), stores[i]? = some o → cs[i]? = some c → Fits rm o c

end Mlio.Spec
