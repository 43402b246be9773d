import Verif.Model.PyLogging
import Verif.Spec.Warnings
import Verif.Spec.PyError

/-!
# What the log should hold
-/

namespace Mlio.Spec

/-- Python's number of a level: `logging.WARNING`, `logging.INFO`, `logging.DEBUG`. -/
inductive PyNumber : LogLevel → Nat → Prop
  | warning : PyNumber .warning 30
  | info : PyNumber .info 20
  | debug : PyNumber .debug 10

/-- The records of a program, where `threshold` is the level that was set last: one for each message that the threshold
lets through. -/
inductive Records : LogLevel → List PyLogAct → List (Nat × String) → Prop
  | nil (t) : Records t [] []
  | level (t l as rs) : Records l as rs → Records t (.setLevel l :: as) rs
  | logged (t l text s n as rs) : l ∈ levelsAt t → IsText text s → PyNumber l n → Records t as rs →
      Records t (.log l text :: as) ((n, s) :: rs)
  | quiet (t l text as rs) : l ∉ levelsAt t → Records t as rs → Records t (.log l text :: as) rs
  | root (t n as rs) : Records t as rs → Records t (.root n :: as) rs
  | own (t n as rs) : Records t as rs → Records t (.own n :: as) rs
  | disable (t n as rs) : Records t as rs → Records t (.disable n :: as) rs
  | handler (t on as rs) : Records t as rs → Records t (.handler on :: as) rs

/-- The level that was set last. -/
def lastLevel (t : LogLevel) : List PyLogAct → LogLevel
  | [] => t
  | .setLevel l :: as => lastLevel l as
  | _ :: as => lastLevel t as

/-- A program that leaves Python's level of "mlio", `logging.disable` and the handler alone, as the documentation asks. -/
def Leaves (as : List PyLogAct) : Prop :=
  ∀ a ∈ as, (∀ n, a ≠ .own n) ∧ (∀ n, a ≠ .disable n) ∧ ∀ on, a ≠ .handler on

/-- All messages are texts (and have a level). -/
def Texts (as : List PyLogAct) : Prop := ∀ l text, .log l text ∈ as → l ≠ .off ∧ ∃ s, IsText text s

end Mlio.Spec
