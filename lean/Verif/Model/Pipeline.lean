import Verif.Model.InstanceReaders

/-!
# The parallel data reader

`src/mlio/parallel_data_reader.cc`: a TBB flow graph (source, limiter, decode, sequencer, queue), run by a background
thread, that hands examples to the consumer through two queues.

The system is a state and a partial function `pstep` that says what an action does and when it is possible.  An
execution is any sequence of possible actions, so all schedules are covered: any number of decode tasks
run at once and end in any order, and each critical section is one action.

What is assumed of TBB and of the standard library:
* a source node keeps a message that its successor has rejected and calls its body again only after that
  message was taken; a limiter node lets `threshold` messages pass before it gets `continue_msg`s back;
  a multifunction node with unlimited concurrency starts a task for every message; a sequencer node
  passes the messages on in the order of their numbers; a serial function node runs one body at a
  time on its messages in order;
* `wait_for_all` returns when no task can run; after an exception in a body (or `cancel_group_execution`) the tasks
  that are running end and all other tasks are dropped;
* a thread that waits on a condition variable goes on when it is notified and the predicate holds.

Simplifications: unlocking and the notification that follows it are one action; there are no spurious wake-ups (they
would only evaluate the predicate again); schema inference (`ensure_schema_inferred`) is left
out, `num_bytes_read_` is in `Verif/Model/DataReader.lean`; memory accesses are sequentially consistent (the code reads `state_` at lines 76 and 149 without holding the mutex).
-/

namespace Mlio

/-- `Run_state`, `parallel_data_reader.h` 72. -/
inductive RunState where
  | notStarted | running | stopped | faulted
  deriving DecidableEq, Repr

/-- Where the consumer thread is: outside, in the wait of `read_example_core`
(`parallel_data_reader.cc` 120-122), or in `thread_.join()` of `stop` (92). -/
inductive Consumer where
  | idle | waiting | joining
  deriving DecidableEq, Repr

/-- The state of a `Parallel_data_reader` (`parallel_data_reader.h` 107-119) and of its flow graph. -/
structure PState {α : Type} (m : Machine (Batch α)) (ε : Type) where
  /-- the batch reader -/
  src : m.σ
  /-- its state at the begin of the epoch (for specifications only) -/
  start : m.σ
  /-- source node: active -/
  active : Bool := false
  /-- source node: the message read but not accepted by the limiter yet -/
  cached : Option (Batch α) := none
  /-- limiter node: its count -/
  count : Nat := 0
  /-- decode node: messages whose tasks have not ended -/
  decoding : List (Batch α) := []
  /-- sequencer node: the buffer, and the number that is passed on next -/
  seq : List (Nat × Option ε) := []
  head : Nat := 0
  /-- queue node: its input queue, the message of the running body, and whether that body sleeps -/
  qIn : List (Option ε) := []
  busy : Option (Option ε) := none
  qAsleep : Bool := false
  /-- the two queues -/
  fill : List ε := []
  read : List ε := []
  /-- `ctx` cancelled -/
  cancelled : Bool := false
  /-- `exception_ptr_` -/
  exc : Option Err := none
  /-- `state_` -/
  status : RunState := .notStarted
  consumer : Consumer := .idle
  cAsleep : Bool := false
  /-- what the calls of `read_example` of this epoch have returned (for specifications only) -/
  out : List (Res (Option ε)) := []

/-- A new reader, `parallel_data_reader.cc` 64-72. -/
def PState.init {α ε : Type} (m : Machine (Batch α)) : PState m ε := { src := m.init, start := m.init }

/-- What can happen next. -/
inductive PAct where
  /-- the source node's body runs -/
  | produce
  /-- the limiter takes the message of the source node -/
  | send
  /-- the `i`-th decode task ends -/
  | decode (i : Nat)
  /-- the sequencer passes a message on -/
  | forward
  /-- the queue node's body starts -/
  | qStart
  /-- the queue node's body does its critical section -/
  | qStep
  /-- a decode task is dropped after cancellation -/
  | dropDecode (i : Nat)
  /-- the messages of the queue node are dropped after cancellation -/
  | dropQueue
  /-- `wait_for_all` returns and the background thread ends -/
  | finish
  /-- the consumer evaluates the predicate of its wait -/
  | cStep
  /-- the join in `stop` returns and `reset` does the rest -/
  | cJoin
  /-- the user calls `read_example` -/
  | callRead
  /-- the user calls `reset` -/
  | callReset
  deriving DecidableEq, Repr

/-- The actions that are the user's choice. -/
def PAct.isCall : PAct → Bool
  | .callRead | .callReset => true
  | _ => false

section
variable {α ε : Type} {m : Machine (Batch α)}

/-- An exception leaves a body of the flow graph: TBB keeps the first one and cancels the group. -/
def PState.throw (s : PState m ε) (e : Err) : PState m ε :=
  { s with cancelled := true, exc := some (s.exc.getD e) }

/-- Source node body, `parallel_data_reader.cc` 208-217. -/
def pProduce (s : PState m ε) : Option (PState m ε) :=
  if s.status = .running ∧ s.active ∧ s.cached.isNone then
    match m.read s.src with
    | (.ok (some b), i) => some { s with src := i, cached := some b }
    | (.ok none, i) => some { s with src := i, active := false }
    | (.err e, i) => some ({ s with src := i, active := false }.throw e)
    | (.ub _, _) => none
  else none

/-- Limiter node, `parallel_data_reader.cc` 221 and 269-270. -/
def pSend (P : Nat) (s : PState m ε) : Option (PState m ε) :=
  if s.status = .running ∧ s.count < P then
    match s.cached with
    | some b => some { s with cached := none, count := s.count + 1, decoding := s.decoding ++ [b] }
    | none => none
  else none

/-- Decode node body, `parallel_data_reader.cc` 226-237. -/
def pDecode (dec : Batch α → Except Err (Option ε)) (i : Nat) (s : PState m ε) : Option (PState m ε) :=
  if s.status = .running then
    match s.decoding[i]? with
    | some b =>
      match dec b with
      | .ok r => some { s with decoding := s.decoding.eraseIdx i, seq := s.seq ++ [(b.index, r)] }
      | .error e => some ({ s with decoding := s.decoding.eraseIdx i }.throw e)
    | none => none
  else none

/-- Sequencer node, `parallel_data_reader.cc` 240-242. -/
def pForward (s : PState m ε) : Option (PState m ε) :=
  if s.status = .running then
    match s.seq.find? (fun q => q.1 = s.head) with
    | some q => some { s with seq := s.seq.filter (fun q => q.1 ≠ s.head), head := s.head + 1, qIn := s.qIn ++ [q.2] }
    | none => none
  else none

/-- Queue node: the body starts. -/
def pQStart (s : PState m ε) : Option (PState m ε) :=
  if s.status = .running ∧ s.busy.isNone then
    match s.qIn with
    | r :: rs => some { s with busy := some r, qIn := rs }
    | [] => none
  else none

/-- Queue node body, `parallel_data_reader.cc` 246-267, and the `continue_msg` to the limiter (273). -/
def pQStep (Q : Nat) (s : PState m ε) : Option (PState m ε) :=
  if s.status = .running ∧ !s.qAsleep then
    match s.busy with
    | none => none
    | some none => some { s with busy := none, count := s.count - 1 }
    | some (some e) =>
      if s.fill.length < Q then
        if s.cancelled then some { s with busy := none, count := s.count - 1 }
        else some { s with busy := none, count := s.count - 1, fill := s.fill ++ [e], cAsleep := false }
      else some { s with qAsleep := true }
  else none

/-- No task of the graph can run: what `wait_for_all` waits for if nothing is cancelled. -/
def PState.quiet (P : Nat) (s : PState m ε) : Bool :=
  !(s.active && s.cached.isNone) && !(s.cached.isSome && decide (s.count < P)) && s.decoding.isEmpty &&
  !(s.seq.any (fun q => q.1 = s.head)) && s.qIn.isEmpty && s.busy.isNone

/-- `wait_for_all` can return. -/
def PState.waitOver (P : Nat) (s : PState m ε) : Bool :=
  if s.cancelled then s.decoding.isEmpty && s.qIn.isEmpty && s.busy.isNone else s.quiet P

/-- The end of `run_pipeline`, `parallel_data_reader.cc` 166-184. -/
def pFinish (P : Nat) (s : PState m ε) : Option (PState m ε) :=
  if s.status = .running ∧ s.waitOver P then
    some { s with status := if s.exc.isSome then .faulted else .stopped, cAsleep := false }
  else none

/-- `parallel_data_reader.cc` 136-144. -/
def pPop (s : PState m ε) : PState m ε :=
  match s.read with
  | [] => { s with consumer := .idle, out := s.out ++ [.ok none] }
  | e :: es => { s with consumer := .idle, read := es, out := s.out ++ [.ok (some e)] }

/-- `read_example_core`, `parallel_data_reader.cc` 114-115 with `ensure_pipeline_running` 147-156 (and
`activate`, 164). -/
def pCallRead (s : PState m ε) : Option (PState m ε) :=
  if s.consumer = .idle then
    if s.read.isEmpty then
      if s.status = .notStarted then some { s with status := .running, active := true, consumer := .waiting }
      else some { s with consumer := .waiting }
    else some (pPop s)
  else none

/-- `read_example_core`, `parallel_data_reader.cc` 117-133: the wait, rethrowing, swapping the queues. -/
def pCStep (s : PState m ε) : Option (PState m ε) :=
  if s.consumer = .waiting ∧ !s.cAsleep then
    if s.status ≠ .running ∨ !s.fill.isEmpty then
      match (if s.status = .faulted then s.exc else none) with
      | some e => some { s with consumer := .idle, out := s.out ++ [.err e] }
      | none => some (pPop { s with read := s.fill, fill := s.read, qAsleep := false })
    else some { s with cAsleep := true }
  else none

/-- `reset`, `parallel_data_reader.cc` 300-317, after `stop` has returned. -/
def PState.afterStop (s : PState m ε) : PState m ε := { src := m.reset s.src, start := m.reset s.src }

/-- `reset`, with the part of `stop` (74-90) before the join. -/
def pCallReset (s : PState m ε) : Option (PState m ε) :=
  if s.consumer = .idle then
    if s.status = .notStarted then some s.afterStop
    else some { s with read := [], cancelled := true, fill := [], qAsleep := false, consumer := .joining }
  else none

/-- The join, `parallel_data_reader.cc` 92. -/
def pCJoin (s : PState m ε) : Option (PState m ε) :=
  if s.consumer = .joining ∧ (s.status = .stopped ∨ s.status = .faulted) then some s.afterStop else none

/-- All actions.  `P` is `num_parallel_reads` and `Q` is `num_prefetched_examples`, both after defaults
(191-201). -/
def pstep (P Q : Nat) (dec : Batch α → Except Err (Option ε)) (a : PAct) (s : PState m ε) : Option (PState m ε) :=
  match a with
  | .produce => pProduce s
  | .send => pSend P s
  | .decode i => pDecode dec i s
  | .forward => pForward s
  | .qStart => pQStart s
  | .qStep => pQStep Q s
  | .dropDecode i =>
    if s.status = .running ∧ s.cancelled ∧ i < s.decoding.length then
      some { s with decoding := s.decoding.eraseIdx i }
    else none
  | .dropQueue =>
    if s.status = .running ∧ s.cancelled ∧ !s.qIn.isEmpty then some { s with qIn := [] } else none
  | .finish => pFinish P s
  | .cStep => pCStep s
  | .cJoin => pCJoin s
  | .callRead => pCallRead s
  | .callReset => pCallReset s

/-- An execution. -/
def prun (P Q : Nat) (dec : Batch α → Except Err (Option ε)) : List PAct → PState m ε → Option (PState m ε)
  | [], s => some s
  | a :: as, s => (pstep P Q dec a s).bind (prun P Q dec as)

end

/-- `num_prefetched_examples` and `num_parallel_reads` after defaults, `parallel_data_reader.cc` 191-201; `cores`
is `default_num_threads()`. -/
def pipelineSizes (cores numPrefetched numParallel : Nat) : Nat × Nat :=
  let q := if numPrefetched = 0 then cores else numPrefetched
  (if numParallel = 0 ∨ numParallel > q then q else numParallel, q)

end Mlio
