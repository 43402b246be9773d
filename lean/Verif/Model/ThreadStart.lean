import Verif.Model.DataReader

/-!
# Starting the background thread

`start_thread`, `src/mlio/detail/thread.h` 31-54, and its use in `ensure_pipeline_running`, `src/mlio/parallel_data_reader.cc`
147-156, when the system refuses.
-/

namespace Mlio

/-- Which call of the system fails, if any. -/
inductive StartFault where
  | none | blockSignals | create | restoreSignals
  deriving DecidableEq, Repr

/-- The signals that a thread blocks. -/
abbrev SigMask := Nat → Bool

/-- What a call of `start_thread` leads to. -/
inductive Started where
  /-- a thread with this mask runs -/
  | thread (mask : SigMask)
  | throws (e : Err)
  /-- `std::terminate`: the destructor of a joinable `std::thread` -/
  | terminates

/-- `start_thread`, 31-54: the outcome and the mask of the caller afterwards. -/
def startThread (f : StartFault) (mask : SigMask) : Started × SigMask :=
  let all : SigMask := fun _ => true
  match f with
  -- 39-42
  | .blockSignals => (.throws .systemError, mask)
  -- 44: the constructor of `std::thread` throws; nothing restores the mask
  | .create => (.throws .systemError, all)
  -- 47-50: the exception destroys `t`
  | .restoreSignals => (.terminates, all)
  | .none => (.thread all, mask)

section
variable {α ε : Type} {m : Machine (Batch α)}

/-- A reader, the thread of its user and the process. -/
structure ThrState (m : Machine (Batch α)) (ε : Type) where
  d : DState m ε
  /-- the mask of the user's thread -/
  mask : SigMask
  /-- `thread_` is joinable -/
  thread : Bool := false
  terminated : Bool := false

/-- A new reader used by a thread with this mask. -/
def ThrState.init (m : Machine (Batch α)) (ε : Type) (mask : SigMask) : ThrState m ε := { d := DState.init m, mask := mask }

/-- What can happen next: as for `DAct`; if the pipeline is to be started, the call has this fault. -/
inductive ThrAct where
  | act (a : DAct)
  | call (c : ReadCall) (f : StartFault)
  deriving DecidableEq, Repr

/-- `read_example_core` would start the pipeline, `parallel_data_reader.cc` 114-115 and 149. -/
def DState.starts (d : DState m ε) : Bool :=
  d.peeked.isNone && d.p.read.isEmpty && decide (d.p.consumer = .idle) && decide (d.p.status = .notStarted)

/-- A move.  `.call` is `read_example` or `peek_example` that starts the pipeline: `state_` is set to `running` before
the thread is started (153-155).  The bodies of nodes and the end of the pipeline run in the background thread and those that it
starts.  Joining a thread that is not joinable throws (92), out of `reset`, which is `noexcept` (300). -/
def thrStep (P Q : Nat) (size : α → Nat) (dec : Batch α → Except Err (Option ε)) (a : ThrAct) (t : ThrState m ε) :
    Option (ThrState m ε) :=
  if t.terminated then none
  else
    match a with
    | .call c f =>
      if t.d.starts then
        match startThread f t.mask with
        | (.thread _, mask) => (dCall c t.d).map fun d => { t with d := d, mask := mask, thread := true }
        | (.throws e, mask) =>
          some { t with d := { t.d with p := { t.d.p with status := .running }, hist := t.d.hist ++ [(c, .err e)] }, mask := mask }
        | (.terminates, mask) => some { t with mask := mask, terminated := true }
      else none
    | .act (.call c) => if t.d.starts then none else (dCall c t.d).map fun d => { t with d := d }
    | .act .reset =>
      if t.d.p.consumer = .idle ∧ t.d.p.status ≠ .notStarted ∧ t.thread = false then some { t with terminated := true }
      else (dstep P Q size dec .reset t.d).map fun d => { t with d := d }
    | .act (.sys a) =>
      if a = .cStep then (dstep P Q size dec (.sys a) t.d).map fun d => { t with d := d }
      else if a = .cJoin then (dstep P Q size dec (.sys a) t.d).map fun d => { t with d := d, thread := false }
      else if t.thread then (dstep P Q size dec (.sys a) t.d).map fun d => { t with d := d }
      else none

/-- An execution. -/
def thrRun (P Q : Nat) (size : α → Nat) (dec : Batch α → Except Err (Option ε)) : List ThrAct → ThrState m ε → Option (ThrState m ε)
  | [], t => some t
  | a :: as, t => (thrStep P Q size dec a t).bind (thrRun P Q size dec as)

end

end Mlio
