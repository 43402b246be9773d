import Verif.Model.Memory

/-!
# What the object storage service does, and what reading an object over an unreliable connection should give

The service is not part of the code; it is described here as far as the code uses it.
-/

namespace Mlio.Spec

/-- The kinds of errors that the client library of the service reports. -/
inductive S3Error where
  | serviceUnavailable | accessDenied | resourceNotFound | noSuchBucket | noSuchKey | requestTimeout | other
  deriving DecidableEq, Repr

/-- The codes of system errors that a user sees. -/
inductive SysCode where
  | hostUnreachable | permissionDenied | noSuchFile | timedOut | ioError | invalidArgument
  deriving DecidableEq, Repr

/-- A bucket and a key. -/
abbrev ObjName := Bytes × Bytes

/-- The service: for each name its versions, the newest first; a version without contents marks a deletion. -/
abbrev Service := ObjName → List (Bytes × Option Bytes)

/-- The version with the given identifier; the newest one if the identifier is empty. -/
def Service.find (s : Service) (o : ObjName) (version : Bytes) : Option Bytes :=
  if version = [] then (match s o with | [] => none | v :: _ => v.2)
  else (match (s o).find? (fun v => v.1 == version) with | none => none | some v => v.2)

/-- Asks for the size of an object. -/
def Service.head (s : Service) (o : ObjName) (version : Bytes) : Except S3Error Nat :=
  match s.find o version with
  | none => .error .resourceNotFound
  | some x => .ok x.length

/-- Asks for the bytes `first` to `last`, both included, of an object: those of them that exist; an error if the first one does not. -/
def Service.get (s : Service) (o : ObjName) (version : Bytes) (first last : Nat) : Except S3Error Bytes :=
  match s.find o version with
  | none => .error .noSuchKey
  | some x => if x.length ≤ first then .error .other else .ok ((x.drop first).take (last + 1 - first))

/-- What other users of the service do. -/
inductive S3Change where
  /-- A new version is stored. -/
  | put (o : ObjName) (version : Bytes) (x : Bytes)
  /-- The object is deleted: a version without contents is stored. -/
  | delete (o : ObjName) (version : Bytes)
  /-- A version is removed for good. -/
  | purge (o : ObjName) (version : Bytes)
  deriving DecidableEq, Repr

/-- The name the change is about. -/
def S3Change.name : S3Change → ObjName
  | .put o _ _ => o
  | .delete o _ => o
  | .purge o _ => o

/-- The version the change is about. -/
def S3Change.version : S3Change → Bytes
  | .put _ v _ => v
  | .delete _ v => v
  | .purge _ v => v

/-- The effect of a change. -/
def Service.apply (s : Service) (c : S3Change) : Service := fun o =>
  if o = c.name then
    match c with
    | .put _ v x => (v, some x) :: s o
    | .delete _ v => (v, none) :: s o
    | .purge _ v => (s o).filter (fun w => w.1 != v)
  else s o

/-- What a call on a stream gives. -/
inductive S3Out where
  | bytes (b : Bytes)
  | num (n : Nat)
  | done
  /-- The stream is closed. -/
  | closed
  | fails (c : SysCode)
  deriving DecidableEq, Repr

/-- What a user is told about an error of the service. -/
def toldAs : S3Error → SysCode
  | .serviceUnavailable => .hostUnreachable
  | .accessDenied => .permissionDenied
  | .resourceNotFound => .noSuchFile
  | .noSuchBucket => .noSuchFile
  | .noSuchKey => .noSuchFile
  | .requestTimeout => .timedOut
  | .other => .ioError

/-- Reading `n` bytes of `x` at `pos`: a fault of the connection matters only if there is something to read; then the read fails and nothing
has happened. -/
def faultyRead (x : Bytes) (pos n : Nat) (fault : Option S3Error) : S3Out × Nat :=
  if n = 0 ∨ x.length ≤ pos then (.bytes [], pos)
  else
    match fault with
    | some e => (.fails (toldAs e), pos)
    | none => (.bytes ((x.drop pos).take n), min (pos + n) x.length)

/-- A call on a cursor over `x`. -/
def faultyCall (x : Bytes) (pos : Nat) (closed : Bool) (k : StreamCall) (fault : Option S3Error) : S3Out × Nat × Bool :=
  match k with
  | .close => (.done, pos, true)
  | .size => (.num x.length, pos, closed)
  | .position => (.num pos, pos, closed)
  | .readInto n => if closed then (.closed, pos, closed) else ((faultyRead x pos n fault).1, (faultyRead x pos n fault).2, closed)
  | .read n => if closed then (.closed, pos, closed) else ((faultyRead x pos n fault).1, (faultyRead x pos n fault).2, closed)
  | .seek n => if closed then (.closed, pos, closed)
    else if n ≤ x.length then (.done, n, closed) else (.fails .invalidArgument, pos, closed)

/-- Calls one after another, each with the fault of its connection. -/
def faultyCalls (x : Bytes) : Nat → Bool → List (StreamCall × Option S3Error) → List S3Out
  | _, _, [] => []
  | p, c, k :: ks =>
    (faultyCall x p c k.1 k.2).1 :: faultyCalls x (faultyCall x p c k.1 k.2).2.1 (faultyCall x p c k.1 k.2).2.2 ks

/-- What happens, in the order of time: changes of the service and calls on the stream. -/
inductive S3Event where
  | change (c : S3Change)
  | call (k : StreamCall) (fault : Option S3Error)
  deriving DecidableEq, Repr

/-- The calls of a history. -/
def callsOf : List S3Event → List (StreamCall × Option S3Error)
  | [] => []
  | .change _ :: es => callsOf es
  | .call k f :: es => (k, f) :: callsOf es

/-- The bytes that were read, put together. -/
def bytesRead : List S3Out → Bytes
  | [] => []
  | .bytes b :: os => b ++ bytesRead os
  | _ :: os => bytesRead os

end Mlio.Spec
