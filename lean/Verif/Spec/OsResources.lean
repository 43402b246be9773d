import Verif.Model.OsResources

/-! # What an object holds of the operating system -/

namespace Mlio.Spec

/-- The descriptors that an object has open: a stream its file until it is closed, a file-backed block its temporary file;
a mapped file needs none. -/
def heldFds : Option OsObj → List Nat
  | some (.stream (some n)) => [n]
  | some (.backed (some n) _ _) => [n]
  | _ => []

/-- The mappings that an object has, with their lengths: all of its memory, or none if it is empty. -/
def heldMaps : Option OsObj → List (Nat × Nat)
  | some (.mapped (some a) size) => [(a, size)]
  | some (.backed _ (some a) size) => [(a, size)]
  | _ => []

/-- The descriptors opened by the object with the given number that are open. -/
def openBy (k : Kernel) (i : Nat) : List Nat := (k.fds.filter (fun f => f.owner == some i)).map Fd.num

/-- The mappings made by the object that are there. -/
def mappedBy (k : Kernel) (i : Nat) : List (Nat × Nat) :=
  (k.maps.filter (fun m => m.owner == some i)).map (fun m => (m.addr, m.len))

/-- What belongs to the rest of the process. -/
def foreignFds (k : Kernel) : List Fd := k.fds.filter (fun f => f.owner == none)

def foreignMaps (k : Kernel) : List Mapping := k.maps.filter (fun m => m.owner == none)

/-- The memory of a file-backed block can be used: its file is as long as the block says. -/
def Usable (k : Kernel) (o : Option OsObj) : Prop :=
  match o with
  | some (.backed (some n) _ size) => ∃ f ∈ k.fds, f.num = n ∧ size ≤ f.len
  | _ => True

/-- Whether it is the library that acts, or the rest of the process. -/
def _root_.Mlio.OsAct.ofLibrary : OsAct → Bool
  | .otherOpen .. => false
  | .otherClose .. => false
  | .otherMap .. => false
  | .otherUnmap .. => false
  | _ => true

/-- No `resize` that makes a block smaller fails after it has cut the file off. -/
def NoFailedShrink : OsState → List OsAct → Prop
  | _, [] => True
  | s, a :: as =>
    (∀ i size addr n data old, a = .resize i size true addr → s.objs i = some (.backed (some n) data old) →
      (ostep s a).2 = .error → old ≤ size) ∧
    NoFailedShrink (ostep s a).1 as

end Mlio.Spec
