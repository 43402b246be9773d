import Verif.Model.Poke

/-!
# Records as references to separate arrays of bytes
-/

namespace Mlio.Spec

/-- Every record that was read has an array of its own.  `handles` are the records that exist, in the order of the
operations (newest first), by the number of their arrays. -/
structure Cells where
  handles : List Nat
  cells : List Bytes
  deriving DecidableEq, Repr

/-- A record was read. -/
def Cells.push (c : Cells) (x : Bytes) : Cells := ⟨c.cells.length :: c.handles, c.cells ++ [x]⟩

/-- After a call that returned `r`. -/
def Cells.returned (c : Cells) : Res (Option Record) → Cells
  | .ok (some r) => c.push r.payload
  | _ => c

/-- A copy is a reference to the same array. -/
def Cells.copy (c : Cells) (i : Nat) : Cells :=
  match c.handles[i]? with
  | some a => { c with handles := a :: c.handles }
  | none => c

/-- A write changes the array of the record. -/
def Cells.write (c : Cells) (i j : Nat) (v : UInt8) : Cells :=
  match c.handles[i]? with
  | some a => { c with cells := c.cells.modify a (fun x => x.set j v) }
  | none => c

/-- The operations, where the calls of the reader returned `rs`. -/
def Cells.after : Cells → List PokeOp → List (Res (Option Record)) → Cells
  | c, .op (.read _) :: os, r :: rs => (c.returned r).after os rs
  | c, .op (.copy i) :: os, _ :: rs => (c.copy i).after os rs
  | c, .op (.release i) :: os, _ :: rs => ({ c with handles := c.handles.eraseIdx i } : Cells).after os rs
  | c, .poke i j v :: os, rs => (c.write i j v).after os rs
  | c, _, _ => c

/-- What the existing records show. -/
def Cells.shown (c : Cells) : List (Option Bytes) := c.handles.map fun a => c.cells[a]?

/-- The operations without the writes. -/
def withoutWrites : List PokeOp → List HeapOp
  | [] => []
  | .op o :: os => o :: withoutWrites os
  | .poke _ _ _ :: os => withoutWrites os

end Mlio.Spec
