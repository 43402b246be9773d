import Verif.Model.Stores

/-!
# SageMaker pipe channels

`src/mlio/streams/sagemaker_pipe_input_stream.cc`, `src/mlio/data_stores/sagemaker_pipe.cc`.
-/

namespace Mlio

/-- What a `Sagemaker_pipe_input_stream` goes through: constructed (117-134), its FIFO opened (136-180), closed (110-115),
destructed (57-60). -/
inductive SmPhase where
  | made
  | opened
  | closed
  | gone
  deriving DecidableEq, Repr

/-- `Sagemaker_pipe_input_stream`, `sagemaker_pipe_input_stream.h` 40-86: `path_`, `fifo_id_`. -/
structure SmStream where
  path : Bytes
  id : Int
  phase : SmPhase
  deriving DecidableEq, Repr

/-- The process: `fifo_ids_` (`sagemaker_pipe_input_stream.cc` 52, entries start at zero), the streams, and the FIFOs
that were opened so far, with the channel they belong to (138: the name is made of the path and the number). -/
structure SmState where
  ids : Bytes → Int
  streams : List SmStream
  used : List (Bytes × Int)

/-- The process at its start. -/
def SmState.init : SmState := ⟨fun _ => 0, [], []⟩

/-- What threads do with streams, one atomic step after another: in each of them at most one access to `fifo_ids_`
happens. `make`: the constructor; `openOk`, `openTimeout`, `openFail`: `open_fifo` succeeds, opens the FIFO and then finds
no data in time (or fails to wait), or fails to open it; `close`; `destroy`: the destructor. -/
inductive SmOp where
  | make (path : Bytes) (fifo : Option Nat)
  | openOk (i : Nat)
  | openTimeout (i : Nat)
  | openFail (i : Nat)
  | close (i : Nat)
  | destroy (i : Nat)
  deriving DecidableEq, Repr

/-- `as_ssize`, `cast.h` 52-55. -/
def smAsSsize (n : Nat) : Int := if n % 2 ^ 64 < 2 ^ 63 then (n % 2 ^ 64 : Nat) else (n % 2 ^ 64 : Nat) - 2 ^ 64

/-- `close`, 110-115: the number goes back into the map, whoever owns the channel now. -/
def SmState.release (s : SmState) (i : Nat) (st : SmStream) (phase : SmPhase) : SmState :=
  { s with ids := fun p => if p = st.path then st.id else s.ids p, streams := s.streams.set i { st with phase := phase } }

/-- One step; `none` if the stream is not there or not in a phase for that.  The counter does not overflow (it is 64 bit
wide in the code).  The unsynchronised insertion into the map of two channels at the same time is left out. -/
def SmState.step (s : SmState) : SmOp → Option (SmState × Res Unit)
  | .make path fifo =>
    -- 117-134
    match validateFilePath path with
    | .err e => some (s, .err e)
    | .ub w => some (s, .ub w)
    | .ok () =>
      if s.ids path = -1 then some (s, .err .systemError)
      else
        let id := match fifo with
          | none => s.ids path
          | some n => smAsSsize n
        some ({ s with
          ids := fun p => if p = path then -1 else s.ids p
          streams := s.streams ++ [⟨path, id, .made⟩] }, .ok ())
  | .openOk i =>
    match s.streams[i]? with
    | some st =>
      if st.phase = .made then
        -- 156 (`fifo_id_++`)
        some ({ s with
          streams := s.streams.set i { st with id := st.id + 1, phase := .opened }
          used := s.used ++ [(st.path, st.id)] }, .ok ())
      else none
    | none => none
  | .openTimeout i =>
    match s.streams[i]? with
    | some st =>
      if st.phase = .made then
        -- 156, then `wait_for_data` throws and the stream is destructed (247-256)
        some ({ s.release i { st with id := st.id + 1 } .gone with used := s.used ++ [(st.path, st.id)] },
          .err .systemError)
      else none
    | none => none
  | .openFail i =>
    match s.streams[i]? with
    | some st => if st.phase = .made then some (s.release i st .gone, .err .systemError) else none
    | none => none
  | .close i =>
    match s.streams[i]? with
    | some st =>
      if st.phase = .opened ∨ st.phase = .closed then some (s.release i st .closed, .ok ()) else none
    | none => none
  | .destroy i =>
    match s.streams[i]? with
    | some st =>
      if st.phase = .opened ∨ st.phase = .closed then some (s.release i st .gone, .ok ()) else none
    | none => none

/-- A history: the steps that are not possible are skipped. -/
def SmState.run : SmState → List SmOp → SmState
  | s, [] => s
  | s, o :: os =>
    match s.step o with
    | some (s', _) => s'.run os
    | none => s.run os

/-- What `::read` returns. -/
inductive PipeRead where
  | bytes (b : Bytes)
  | again
  | failed
  deriving DecidableEq, Repr

/-- The loop in `read`, 70-107, for what the calls of `::read` and of `select` return. -/
def smReadLoop (wait : Bool) : (attempts : Nat) → List PipeRead → Res Bytes
  | _, [] => .err .diverges
  | _, .bytes b :: _ => .ok b
  | _, .failed :: _ => .err .systemError
  | a, .again :: rs =>
    if a + 1 = 1 then smReadLoop wait (a + 1) rs
    else if a + 1 = 2 then
      if wait then smReadLoop wait (a + 1) rs else .err .systemError
    else .err .systemError

/-- `read`, 62-108. -/
def smRead (opened : Bool) (n : Nat) (wait : Bool) (rs : List PipeRead) : Res Bytes :=
  if !opened then .err .streamError
  else if n = 0 then .ok []
  else smReadLoop wait 0 rs

end Mlio
