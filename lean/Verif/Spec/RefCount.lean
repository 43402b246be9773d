import Verif.Model.RefCount

/-!
# What reference counting is for
-/

namespace Mlio.Spec

/-- No object yet: `n` variables that are null and `k` threads. -/
def rcInit (n k : Nat) : RcState := ⟨List.replicate n none, [], List.replicate k ⟨[], [], []⟩⟩

/-- A handle that can be reached points to the object: a variable, or a member of an object that is not deleted; or
such a member is about to be destructed. -/
def Referenced (s : RcState) (o : Nat) : Prop :=
  (∃ l, s.valid l = true ∧ s.get l = some o) ∨ ∃ th ∈ s.threads, RcMicro.dec o ∈ th.todo

/-- The object exists. -/
def Alive (s : RcState) (o : Nat) : Prop := ∃ ob, s.objs[o]? = some ob ∧ ob.alive = true

/-- No thread is in the middle of an operation. -/
def Quiet (s : RcState) : Prop := ∀ th ∈ s.threads, th.todo = []

/-- The operation does not race with those in progress: nobody else accesses what it writes or writes what it reads;
and it does not overwrite a handle through which it reaches another one (as in `p = p->next`). -/
def RaceFree (s : RcState) (th' : RcThread) : Prop :=
  (∀ l ∈ th'.writes, l ∉ th'.reads) ∧
  ∀ th ∈ s.threads, th.todo ≠ [] →
    (∀ l ∈ th'.writes, l ∉ th.reads ∧ l ∉ th.writes) ∧ ∀ l ∈ th'.reads, l ∉ th.writes

/-- Creating an object in a variable does not race with the operations in progress. -/
def RaceFreeVar (s : RcState) (v : Nat) : Prop :=
  ∀ th ∈ s.threads, th.todo ≠ [] → RcLoc.var v ∉ th.reads ∧ RcLoc.var v ∉ th.writes

/-- A schedule all of whose operations are race free. -/
def CarefulRc : RcState → List RcEvent → Prop
  | _, [] => True
  | s, e :: es =>
    (match e with
      | .start _ (.make v _) => RaceFreeVar s v
      | .start _ o => ∀ th', s.compile o = some th' → RaceFree s th'
      | .step _ => True) ∧
    ∀ s', s.event e = .ok s' → CarefulRc s' es

end Mlio.Spec
