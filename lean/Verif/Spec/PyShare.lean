import Verif.Model.PyShare

/-!
# What sharing tensors is meant to do

Without counts, contexts and deleters: objects refer to tensors, and a tensor's memory is there as long as an object refers to it.
-/

namespace Mlio.Spec

/-- What an object is: a tensor (or something that has it), a buffer of it, a capsule, a capsule that was taken, an array of another library. -/
inductive ShareKind where
  | tensor | view | capsule | emptyCapsule | array
  deriving DecidableEq, Repr

/-- An object: what it is, the number of its tensor, and whether it is gone. -/
structure Share where
  kind : ShareKind
  tensor : Nat
  gone : Bool
  deriving DecidableEq, Repr

/-- The objects of a program; of each tensor, whether it can be exported. -/
structure ShareEnv where
  plain : List Bool
  objs : List Share
  deriving DecidableEq, Repr

def ShareEnv.get (e : ShareEnv) (x : Nat) : Option (ShareKind × Nat) :=
  match e.objs[x]? with
  | some ⟨k, t, false⟩ => some (k, t)
  | _ => none

def ShareEnv.push (e : ShareEnv) (k : ShareKind) (t : Nat) : ShareEnv := { e with objs := e.objs ++ [⟨k, t, false⟩] }

/-- The meaning of a step. -/
def ShareEnv.step (e : ShareEnv) : ShOp → ShOut × ShareEnv
  | .make _ plain => (.done, ShareEnv.push { e with plain := e.plain ++ [plain] } .tensor e.plain.length)
  | .alias x => match e.get x with
    | some (.tensor, t) => (.done, e.push .tensor t)
    | _ => (.refused, e)
  | .view x => match e.get x with
    | some (.tensor, t) => (.done, e.push .view t)
    | _ => (.refused, e)
  | .export x version => match e.get x with
    | some (.tensor, t) => if version = 16 ∧ e.plain[t]? = some true then (.done, e.push .capsule t) else (.refused, e)
    | _ => (.refused, e)
  | .take x => match e.get x with
    | some (.capsule, t) => (.done, ShareEnv.push { e with objs := e.objs.set x ⟨.emptyCapsule, t, false⟩ } .array t)
    | _ => (.refused, e)
  | .drop x _ _ => match e.get x with
    | some (k, t) => (.done, { e with objs := e.objs.set x ⟨k, t, true⟩ })
    | none => (.refused, e)
  | .read x => match e.get x with
    | some (.view, t) => (.elements t, e)
    | some (.array, t) => (.elements t, e)
    | _ => (.refused, e)

def ShareEnv.run (e : ShareEnv) : List ShOp → List ShOut × ShareEnv
  | [] => ([], e)
  | a :: as => let (o, e1) := e.step a; let (os, e2) := e1.run as; (o :: os, e2)

def ShareEnv.start : ShareEnv := ⟨[], []⟩

/-- Some object other than an empty capsule refers to the tensor. -/
def ShareEnv.InUse (e : ShareEnv) (t : Nat) : Prop := ∃ o ∈ e.objs, o.tensor = t ∧ o.gone = false ∧ o.kind ≠ .emptyCapsule

/-- The program drops arrays of other libraries without the lock only if the tensor is not over a Python buffer or something else refers to it. -/
def DropsWithLock (e : ShareEnv) (buffers : List Bool) : ShOp → Prop
  | .drop x lock _ => ∀ t, e.get x = some (.array, t) → lock = true ∨ buffers[t]? = some false ∨ (e.step (.drop x lock false)).2.InUse t
  | _ => True

/-- The program drops no empty capsule while an exception is on its way. -/
def DropsQuietly (e : ShareEnv) : ShOp → Prop
  | .drop x _ pending => ∀ t, e.get x = some (.emptyCapsule, t) → pending = false
  | _ => True

/-- Of the tensors that the program makes, which are over Python buffers. -/
def buffersOf (prog : List ShOp) : List Bool := prog.filterMap fun a => match a with | .make buffer _ => some buffer | _ => none

/-- Both, for each step of the program. -/
def CarefulShares (prog : List ShOp) : Prop :=
  ∀ q a, q ++ [a] <+: prog → DropsWithLock (ShareEnv.start.run q).2 (buffersOf prog) a ∧ DropsQuietly (ShareEnv.start.run q).2 a

end Mlio.Spec
