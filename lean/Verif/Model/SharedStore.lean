import Verif.Model.StoreId

/-!
# Data stores that several threads use

`id` and `open_read` of the data stores, as the reads and writes of members that objects share: `id_` of `In_memory_store` and
`S3_object` (`mutable`, computed by the first call of `id`), `fifo_id_` of `Sagemaker_pipe` (`mutable`, cleared by `open_read`), the
process-wide table `fifo_ids_` of `sagemaker_pipe_input_stream.cc`, and the string shared by the classes written in Python.  One
step of a thread is one read or write.  Left out: members that are never written after construction, the streams, and the reads and
writes of `logger`.
-/

namespace Mlio

/-- What threads may share. -/
inductive StoreCell where
  | id (k : Nat)
  | fifo (k : Nat)
  | table
  | python
  deriving DecidableEq, Repr

/-- The reads and writes that a thread has before it. -/
inductive StoreMicro where
  /-- `id_.empty()`: `in_memory_store.cc` 54, `s3_object.cc` 68 -/
  | check (k : Nat)
  /-- `id_ = …`: `in_memory_store.cc` 56, `s3_object.cc` 73 -/
  | fill (k : Nat)
  /-- the caller reads the string that it got a reference to -/
  | use (k : Nat)
  /-- `data_store.cc` 60: the method in Python is called, with the lock of the interpreter held, and its result goes into the string -/
  | callPython (k : Nat)
  /-- `std::exchange(fifo_id_, …)`, `sagemaker_pipe.cc` 50: reading, then writing -/
  | getFifo (k : Nat)
  | clearFifo (k : Nat) (n : Option Nat)
  /-- `fifo_ids_[path_]`, `sagemaker_pipe_input_stream.cc` 124: inserts the path if it is not there; then the stream is constructed
  with this number -/
  | channel (k : Nat) (n : Option Nat)
  deriving DecidableEq, Repr

/-- The process. -/
structure StoreState where
  ids : Nat → Bytes := fun _ => []
  fifo : Nat → Option Nat
  table : List Bytes := []
  python : Bytes := []
  todo : Nat → List StoreMicro := fun _ => []
  /-- what the calls of `id` gave, and the numbers streams were constructed with -/
  names : List (Nat × Bytes) := []
  opened : List (Nat × Option Nat) := []

/-- Calls. -/
inductive StoreCall where
  | id (k : Nat)
  | openRead (k : Nat)
  deriving DecidableEq, Repr

/-- What a call of `id` does, `file.h` 54-57, `in_memory_store.cc` 52-60, `s3_object.cc` 66-77, `sagemaker_pipe.h` 48-51, `data_store.cc`
56-65. -/
def idMicros (s : AnyStore) (k : Nat) : List StoreMicro :=
  match s with
  | .file .. => [.use k]
  | .memory .. => [.check k, .use k]
  | .object .. => [.check k, .use k]
  | .pipe .. => [.use k]
  | .python _ => [.callPython k, .use k]

/-- What a call does; `info`: messages of the level info are logged (`in_memory_store.cc` 40-42, `s3_object.cc` 53-55). -/
def callMicros (stores : Nat → AnyStore) (info : Bool) : StoreCall → List StoreMicro
  | .id k => idMicros (stores k) k
  | .openRead k =>
    match stores k with
    | .memory .. => if info then idMicros (stores k) k else []
    | .object .. => if info then idMicros (stores k) k else []
    | .pipe .. => [.getFifo k]
    | _ => []

/-- The first access of a thread: the cell, whether it is written, and whether the lock of the interpreter is held. -/
def StoreMicro.access (stores : Nat → AnyStore) (s : StoreState) : StoreMicro → Option (StoreCell × Bool × Bool)
  | .check k => some (.id k, false, false)
  | .fill k => some (.id k, true, false)
  | .use k =>
    match stores k with
    | .memory .. => some (.id k, false, false)
    | .object _ v _ => if v.isEmpty then none else some (.id k, false, false)
    | .python _ => some (.python, false, false)
    | _ => none
  | .callPython _ => some (.python, true, true)
  | .getFifo k => some (.fifo k, false, false)
  | .clearFifo k _ => some (.fifo k, true, false)
  | .channel k _ =>
    match stores k with
    | .pipe path _ => some (.table, !s.table.contains path, false)
    | _ => none

/-- The string a caller of `id` reads. -/
def StoreState.nameOf (stores : Nat → AnyStore) (s : StoreState) (k : Nat) : Bytes :=
  match stores k with
  | .file path _ _ => path
  | .memory .. => s.ids k
  | .object uri v _ => if v.isEmpty then uri else s.ids k
  | .pipe path _ => path
  | .python _ => s.python

/-- One read or write, and what is left to do. -/
def microStep (stores : Nat → AnyStore) (s : StoreState) : StoreMicro → List StoreMicro → StoreState × List StoreMicro
  | .check k, rest =>
    match stores k with
    | .object _ v _ => (s, if (s.ids k).isEmpty && !v.isEmpty then .fill k :: rest else rest)
    | _ => (s, if (s.ids k).isEmpty then .fill k :: rest else rest)
  | .fill k, rest => ({ s with ids := fun j => if j = k then (stores k).id else s.ids j }, rest)
  | .use k, rest => ({ s with names := s.names ++ [(k, s.nameOf stores k)] }, rest)
  | .callPython k, rest => ({ s with python := (stores k).id }, rest)
  | .getFifo k, rest => (s, .clearFifo k (s.fifo k) :: rest)
  | .clearFifo k n, rest => ({ s with fifo := fun j => if j = k then none else s.fifo j }, .channel k n :: rest)
  | .channel k n, rest =>
    match stores k with
    | .pipe path _ => ({ s with table := if s.table.contains path then s.table else path :: s.table, opened := s.opened ++ [(k, n)] }, rest)
    | _ => (s, rest)

/-- What can happen: a thread that does nothing begins a call, or a thread does its next read or write. -/
inductive StoreAct where
  | call (t : Nat) (c : StoreCall)
  | run (t : Nat)
  deriving DecidableEq, Repr

def storeStep (stores : Nat → AnyStore) (info : Bool) (s : StoreState) : StoreAct → Option StoreState
  | .call t c =>
    if s.todo t = [] then some { s with todo := fun u => if u = t then callMicros stores info c else s.todo u } else none
  | .run t =>
    match s.todo t with
    | [] => none
    | m :: rest =>
      let (s', rest') := microStep stores s m rest
      some { s' with todo := fun u => if u = t then rest' else s'.todo u }

def storeRun (stores : Nat → AnyStore) (info : Bool) (s : StoreState) : List StoreAct → Option StoreState
  | [] => some s
  | a :: as => (storeStep stores info s a).bind fun s' => storeRun stores info s' as

end Mlio
