import Verif.Model.Pipeline

/-!
# Readers used from Python: the interpreter lock and the log

`src/mlio/logger.h`, `src/mlio/logger.cc` (which messages reach the handler), `src/mlio-py/mlio/core/logging.cc` (the Python handler needs the
interpreter lock, the GIL), `src/mlio-py/mlio/core/data_reader.cc` 595-615 (which calls give the lock away),
`src/mlio-py/mlio/__init__.py` (what is set when the package is imported).

The pipeline is that of `Verif/Model/Pipeline.lean`; here the bodies of the source node and of the decode node
have a begin, a number of log messages, and an end.

Simplifications: a handler that has the lock ends and gives the lock back, which is one action; so do other threads of
the interpreter, which therefore do not occur; the thread of the user gets the lock back at the end of a call that gave it
away as soon as it wants it.  The queue node and the sequencer do not log.  Messages of levels below warning that are
logged when a store is opened count as messages of the source node's body.  The destructors of the readers (e.g. `csv_reader.cc` 88-91)
call `stop` as `reset` does and are not modelled separately.
-/

namespace Mlio

/-- `Log_level`, `include/mlio/logging.h` 26. -/
inductive LogLevel where
  | off | warning | info | debug
  deriving DecidableEq, Repr

/-- The order of the levels as numbers. -/
def LogLevel.rank : LogLevel → Nat
  | .off => 0
  | .warning => 1
  | .info => 2
  | .debug => 3

/-- `msg_handler_` (is there one) and `level_`, `logger.cc` 29-31. -/
structure LogCfg where
  handler : Bool
  level : LogLevel

/-- `is_enabled_for`, `logger.cc` 63-66. -/
def LogCfg.enabled (c : LogCfg) (l : LogLevel) : Bool := decide (l.rank ≤ c.level.rank)

/-- `log` (`logger.h` 37-50) with `handle_message` (`logger.cc` 37-59): is the handler called. -/
def LogCfg.calls (c : LogCfg) (l : LogLevel) : Bool := c.enabled l && c.handler

/-- After `import mlio`, `__init__.py` (`set_log_message_handler`, `set_log_level(LogLevel.WARNING)`). -/
def LogCfg.python : LogCfg := ⟨true, .warning⟩

/-- How many messages of these levels reach the handler. -/
def LogCfg.count (c : LogCfg) (ls : List LogLevel) : Nat := (ls.filter c.calls).length

/-- The messages of `Instance_batch_reader::read_instance_batch`, `instance_batch_reader.cc` 57-75, in a state of the batch reader. -/
def batchMessages {α : Type} (batchSize : Nat) (h : LastHandling) (inner : Machine α) (s : inner.σ × Nat) : List LogLevel :=
  match batchLoop inner batchSize s.1 [] with
  | (.ok xs, _) =>
    if xs.isEmpty = false ∧ xs.length ≠ batchSize ∧ (h = .dropWarn ∨ h = .padWarn) then [.warning] else []
  | _ => []

section
variable {α ε : Type} {m : Machine (Batch α)}

/-- How many messages reach the handler when the batch reader reads in this state, and when this batch is decoded. -/
structure Logs (m : Machine (Batch α)) where
  src : m.σ → Nat
  dec : Batch α → Nat

/-- A reader used from Python. -/
structure GState (m : Machine (Batch α)) (ε : Type) where
  p : PState m ε
  /-- the thread of the user has the interpreter lock -/
  held : Bool := true
  /-- the body of the source node that is running, if any: the messages it has not logged yet -/
  srcBody : Option Nat := none
  /-- for every message of the decode node, in the order of `p.decoding`: the body that is running, if any -/
  bodies : List (Option Nat) := []

/-- A new reader. -/
def GState.init (m : Machine (Batch α)) (ε : Type) : GState m ε := { p := PState.init m }

/-- What can happen next. -/
inductive GAct where
  /-- as in the pipeline; for `produce` and `decode` this is the end of the body -/
  | sys (a : PAct)
  /-- the source node's body starts -/
  | srcBegin
  /-- the source node's body logs a message -/
  | srcLog
  /-- the body of the `i`-th decode task starts -/
  | decBegin (i : Nat)
  /-- it logs a message -/
  | decLog (i : Nat)
  /-- between two calls of the library, the user's thread gives the lock away or takes it back -/
  | switch
  deriving DecidableEq, Repr

/-- The actions of the user's thread outside the library. -/
def GAct.isUser : GAct → Bool
  | .sys a => a.isCall
  | .switch => true
  | _ => false

/-- The calls of the pipeline and what they do to the lock.  `read_example`, `peek_example` and the iterator give the lock away and have it again when
they return (`data_reader.cc` 595-608 and 38-45).  `rel` says whether `reset` does so. -/
def gstep (rel : Bool) (L : Logs m) (P Q : Nat) (dec : Batch α → Except Err (Option ε)) (a : GAct) (g : GState m ε) :
    Option (GState m ε) :=
  match a with
  -- after cancellation no task starts any more
  | .srcBegin =>
    if g.srcBody = none ∧ g.p.cancelled = false ∧ (pProduce g.p).isSome then some { g with srcBody := some (L.src g.p.src) } else none
  -- `Py_log_message_handler::operator()`, `logging.cc` 48-53
  | .srcLog =>
    match g.srcBody with
    | some (k + 1) => if g.held then none else some { g with srcBody := some k }
    | _ => none
  | .decBegin i =>
    if g.p.status = .running ∧ g.p.cancelled = false ∧ g.bodies[i]? = some none then
      match g.p.decoding[i]? with
      | some b => some { g with bodies := g.bodies.set i (some (L.dec b)) }
      | none => none
    else none
  | .decLog i =>
    match g.bodies[i]? with
    | some (some (k + 1)) => if g.held then none else some { g with bodies := g.bodies.set i (some k) }
    | _ => none
  | .switch => if g.p.consumer = .idle then some { g with held := !g.held } else none
  | .sys a =>
    let next := pstep P Q dec a g.p
    match a with
    | .produce => if g.srcBody = some 0 then next.map fun p => { g with p := p, srcBody := none } else none
    | .send => next.map fun p => { g with p := p, bodies := g.bodies ++ [none] }
    | .decode i => if g.bodies[i]? = some (some 0) then next.map fun p => { g with p := p, bodies := g.bodies.eraseIdx i } else none
    | .dropDecode i => if g.bodies[i]? = some none then next.map fun p => { g with p := p, bodies := g.bodies.eraseIdx i } else none
    | .finish => if g.srcBody = none then next.map fun p => { g with p := p } else none
    | .cStep => next.map fun p => { g with p := p, held := decide (p.consumer = .idle) }
    | .callRead => if g.held then next.map fun p => { g with p := p, held := decide (p.consumer = .idle) } else none
    | .callReset => if g.held then next.map fun p => { g with p := p, held := decide (p.consumer = .idle) || !rel } else none
    | .cJoin => next.map fun p => { p := p }
    | _ => next.map fun p => { g with p := p }

/-- The binding of `reset` has no `call_guard<gil_scoped_release>`, `data_reader.cc` 609-612. -/
def resetReleases : Bool := false

/-- An execution. -/
def grun (rel : Bool) (L : Logs m) (P Q : Nat) (dec : Batch α → Except Err (Option ε)) : List GAct → GState m ε → Option (GState m ε)
  | [], g => some g
  | a :: as, g => (gstep rel L P Q dec a g).bind (grun rel L P Q dec as)

end

end Mlio
