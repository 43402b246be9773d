import Verif.Model.Sagemaker

/-!
# Waiting for a FIFO

`src/mlio/streams/sagemaker_pipe_input_stream.cc` 62-108, 136-232: opening and reading one FIFO of a SageMaker channel, with the service that writes to it, signals
and the time that passes.  (The numbers of FIFOs and the table of channels are in `Verif/Model/Sagemaker.lean`.)

Simplifications: the service connects to each FIFO once, as SageMaker does; the capacity of the pipe (which makes the service wait) is left out;
`::open` fails only because the FIFO is not there yet.
-/

namespace Mlio

/-- The other end of the FIFO: the service has not connected yet, is connected, or has closed its end. -/
inductive FifoPeer where
  | away
  | connected
  | closed
  deriving DecidableEq, Repr

/-- A FIFO: has it been made, has the stream opened it, who is at the other end, what can be read now and everything that was ever written. -/
structure Fifo where
  there : Bool
  opened : Bool
  peer : FifoPeer
  buf : Bytes
  written : Bytes
  deriving DecidableEq, Repr

/-- A FIFO before anything happens. -/
def Fifo.init : Fifo := ⟨false, false, .away, [], []⟩

/-- What happens around the stream.  `tick`: a microsecond passes; `signal`: a signal is handled; `go k`: the stream gets to its next system call, which, if it reads,
gets at most `k + 1` bytes. -/
inductive FifoEv where
  | appear
  | connect
  | write (b : Bytes)
  | close
  | tick
  | signal
  | go (k : Nat)
  deriving DecidableEq, Repr

/-- fifo(7): the service's `open` waits until the reader has opened the FIFO; what is written is appended. -/
def Fifo.ev (f : Fifo) : FifoEv → Fifo
  | .appear => { f with there := true }
  | .connect => if f.opened ∧ f.peer = .away then { f with peer := .connected } else f
  | .write b => if f.peer = .connected then { f with buf := f.buf ++ b, written := f.written ++ b } else f
  | .close => if f.peer = .connected then { f with peer := .closed } else f
  | .tick | .signal | .go _ => f

/-- poll(2), select(2): there is something to read, or the other end has been closed. -/
def Fifo.ready (f : Fifo) : Bool := !f.buf.isEmpty || f.peer == .closed

/-- `::read` of at most `n` bytes on a descriptor in non-blocking mode, pipe(7): with nothing to read it gives `EAGAIN` while the service is connected and zero bytes otherwise, also when the
service has not connected yet. -/
def Fifo.sysRead (n k : Nat) (f : Fifo) : PipeRead × Fifo :=
  if f.buf ≠ [] then (.bytes (f.buf.take (min n (k + 1))), { f with buf := f.buf.drop (min n (k + 1)) })
  else if f.peer = .connected then (.again, f)
  else (.bytes [], f)

/-- What happens before the next system call; and how much it may read. -/
def Fifo.advance : List FifoEv → Fifo → Nat × Fifo × List FifoEv
  | [], f => (f.buf.length, f, [])
  | .go k :: es, f => (k, f, es)
  | e :: es, f => Fifo.advance es (f.ev e)

/-- What a call on the stream ends with. -/
inductive FifoRes (α : Type) where
  | ok (a : α)
  /-- `ETIMEDOUT` from `wait_for_data`, 221-225 -/
  | timedOut
  /-- `EAGAIN` from `::read`, 100-103 -/
  | noData
  /-- `EINVAL` from `select`, 227-231 -/
  | invalid
  /-- `ENOENT` from `::open`, 174-176 -/
  | missing
  | ub (what : String)
  deriving DecidableEq, Repr

/-- `select` within `temp_failure_retry`, 218-219, `system_call.h` 26-35: with `left` microseconds to go; when it is interrupted by a signal it is called again with
the time that is left.  The last component is the time that has passed. -/
def Fifo.select : List FifoEv → (left : Nat) → Fifo → Bool × Fifo × List FifoEv × Nat
  | es, left, f =>
    if f.ready then (true, f, es, 0)
    else if left = 0 then (false, f, es, 0)
    else
      match es with
      | [] => (false, f, [], left)   -- nothing happens any more, the time runs out
      | .tick :: es =>
        let (r, f', es', t) := Fifo.select es (left - 1) f
        (r, f', es', t + 1)
      | e :: es => Fifo.select es left (f.ev e)

/-- A second, in microseconds. -/
def second : Nat := 1000000

/-- `FD_SETSIZE` on Linux: the number of descriptors in an `fd_set`. -/
def fdSetSize : Nat := 1024

/-- `wait_for_data`, 192-232: `timeout` in seconds. -/
def Fifo.wait (fd : Nat) (timeout : Int) (f : Fifo) (es : List FifoEv) : FifoRes Unit × Fifo × List FifoEv × Nat :=
  if fd ≥ fdSetSize then (.ub "FD_SET outside of the set", f, es, 0)   -- 205
  else if timeout < 0 then (.invalid, f, es, 0)
  else
    match Fifo.select es (timeout.toNat * second) f with
    | (true, f', es', t) => (.ok (), f', es', t)
    | (false, f', es', t) => (.timedOut, f', es', t)

/-- The loop of `read`, 70-107, after `attempts` answers of `EAGAIN`; the third is an error. -/
def Fifo.readLoop (fd : Nat) (timeout : Int) (n : Nat) : (fuel attempts : Nat) → Fifo → List FifoEv →
    FifoRes Bytes × Fifo × List FifoEv × Nat
  | 0, _, f, es => (.noData, f, es, 0)
  | fuel + 1, attempts, f, es =>
    let (k, f, es) := Fifo.advance es f
    match f.sysRead n k with
    | (.bytes b, f) => (.ok b, f, es, 0)
    | (.failed, f) => (.noData, f, es, 0)
    | (.again, f) =>
      if attempts + 1 = 1 then Fifo.readLoop fd timeout n fuel (attempts + 1) f es
      else if attempts + 1 = 2 then
        match f.wait fd timeout es with
        | (.ok (), f, es, t) =>
          let (r, f, es, t') := Fifo.readLoop fd timeout n fuel (attempts + 1) f es
          (r, f, es, t + t')
        | (.timedOut, f, es, t) => (.timedOut, f, es, t)
        | (.noData, f, es, t) => (.noData, f, es, t)
        | (.invalid, f, es, t) => (.invalid, f, es, t)
        | (.missing, f, es, t) => (.missing, f, es, t)
        | (.ub w, f, es, t) => (.ub w, f, es, t)
      else (.noData, f, es, 0)

/-- `read` on a stream that is open, 62-108. -/
def Fifo.read (fd : Nat) (timeout : Int) (n : Nat) (f : Fifo) (es : List FifoEv) : FifoRes Bytes × Fifo × List FifoEv × Nat :=
  if n = 0 then (.ok [], f, es, 0) else Fifo.readLoop fd timeout n 4 0 f es

/-- `sleep`, 179-190: a second, or until a signal is handled. -/
def Fifo.sleep : List FifoEv → (left : Nat) → Fifo → Fifo × List FifoEv × Nat
  | es, left, f =>
    if left = 0 then (f, es, 0)
    else
      match es with
      | [] => (f, [], left)
      | .tick :: es =>
        let (f', es', t) := Fifo.sleep es (left - 1) f
        (f', es', t + 1)
      | .signal :: es => (f, es, 0)
      | e :: es => Fifo.sleep es left (f.ev e)

/-- `open_fifo`, 136-177, with `attempts` left: the FIFO is tried at most three times, with a pause between. -/
def Fifo.openLoop (fd : Nat) (timeout : Int) : (attempts : Nat) → Fifo → List FifoEv → FifoRes Unit × Fifo × List FifoEv × Nat
  | 0, f, es => (.missing, f, es, 0)
  | attempts + 1, f, es =>
    let (_, f, es) := Fifo.advance es f
    if f.there then Fifo.wait fd timeout { f with opened := true } es
    else if attempts = 0 then (.missing, f, es, 0)
    else
      let (f, es, t) := Fifo.sleep es second f
      let (r, f, es, t') := Fifo.openLoop fd timeout attempts f es
      (r, f, es, t + t')

/-- `Sagemaker_pipe_input_stream_access::make`, 246-256. -/
def Fifo.open (fd : Nat) (timeout : Int) (f : Fifo) (es : List FifoEv) : FifoRes Unit × Fifo × List FifoEv × Nat :=
  Fifo.openLoop fd timeout 3 f es

/-- The argument `timeout` of `SageMakerPipe` in Python (`mlio-py` `data_store.cc` 178-192), a `timedelta` or a number of seconds: pybind11 converts it to `std::chrono::seconds` by `duration_cast`,
which cuts off parts of a second.  In microseconds. -/
def pyTimeout (us : Int) : Int := us.tdiv second

/-- Calls of `read` one after the other until one fails: what they return, and how it ends. -/
def Fifo.reads (fd : Nat) (timeout : Int) : List Nat → Fifo → List FifoEv → List Bytes × FifoRes Unit × Fifo × List FifoEv
  | [], f, es => ([], .ok (), f, es)
  | n :: ns, f, es =>
    match f.read fd timeout n es with
    | (.ok b, f, es, _) =>
      let (bs, r, f, es) := Fifo.reads fd timeout ns f es
      (b :: bs, r, f, es)
    | (.timedOut, f, es, _) => ([], .timedOut, f, es)
    | (.noData, f, es, _) => ([], .noData, f, es)
    | (.invalid, f, es, _) => ([], .invalid, f, es)
    | (.missing, f, es, _) => ([], .missing, f, es)
    | (.ub w, f, es, _) => ([], .ub w, f, es)

end Mlio
