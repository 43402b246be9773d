import Verif.Model.Warnings

/-!
# The library's log in Python

`src/mlio-py/mlio/__init__.py` 139-181 over `src/mlio/logger.cc` and `src/mlio-py/mlio/core/logging.cc`; of Python's
module `logging` the methods `Logger.setLevel`, `Logger.isEnabledFor`, `Logger.getEffectiveLevel` and `logging.disable`,
as documented: the logger "mlio" has no parent but the root logger.  What the handlers of the loggers do with a record is
left out.
-/

namespace Mlio

/-- `_map_log_level`, `__init__.py` 142-150, with the numbers of the module `logging`. -/
def mapLogLevel : LogLevel → Nat
  | .off => 0
  | .warning => 30
  | .info => 20
  | .debug => 10

/-- The library's log, the levels of the loggers "mlio" and root, and `logging.root.manager.disable`. -/
structure PyLog where
  cfg : LogCfg
  own : Nat
  root : Nat
  disabled : Nat

/-- After `import mlio`, `__init__.py` 157-181, in a program that has set the level of the root logger to `root`. -/
def PyLog.imported (root : Nat) : PyLog := ⟨⟨true, .warning⟩, mapLogLevel .warning, root, 0⟩

/-- `Logger.isEnabledFor` of the logger "mlio": a level of zero (`NOTSET`) means that of the root logger. -/
def PyLog.enabledFor (w : PyLog) (n : Nat) : Bool :=
  !decide (n ≤ w.disabled) && decide ((if w.own = 0 then w.root else w.own) ≤ n)

/-- What a program does, and the messages that the library logs. -/
inductive PyLogAct where
  /-- `mlio.set_log_level(l)`, `__init__.py` 166-177 -/
  | setLevel (l : LogLevel)
  /-- `logging.getLogger().setLevel(n)` -/
  | root (n : Nat)
  /-- `logging.getLogger("mlio").setLevel(n)` -/
  | own (n : Nat)
  /-- `logging.disable(n)` -/
  | disable (n : Nat)
  /-- `mlio._core.set_log_message_handler` or `clear_log_message_handler`, `logging.cc` 59-84 -/
  | handler (on : Bool)
  /-- the library logs a message, `logger.h` 37-50 -/
  | log (l : LogLevel) (text : Bytes)

/-- What one of them does, and the records it makes: `_log_message`, `__init__.py` 153-154, calls `Logger.log`.  A text
that is not UTF-8 gets lost, see `pyLogged`. -/
def PyLog.act (w : PyLog) : PyLogAct → List (Nat × String) × PyLog
  | .setLevel l => ([], { w with cfg := { w.cfg with level := l }, own := mapLogLevel l })
  | .root n => ([], { w with root := n })
  | .own n => ([], { w with own := n })
  | .disable n => ([], { w with disabled := n })
  | .handler on => ([], { w with cfg := { w.cfg with handler := on } })
  | .log l text =>
    (if w.cfg.calls l then
      match pyStr text with
      | some s => if w.enabledFor (mapLogLevel l) then [(mapLogLevel l, s)] else []
      | none => []
    else [], w)

/-- A program: the records, in order, and the state after it. -/
def PyLog.run (w : PyLog) : List PyLogAct → List (Nat × String) × PyLog
  | [] => ([], w)
  | a :: as =>
    let (r, w) := w.act a
    let (rs, w) := w.run as
    (r ++ rs, w)

end Mlio
