import Verif.Model.CoreReader

/-!
# The messages of the core instance reader

`src/mlio/instance_readers/core_instance_reader.cc` 70-102: what `Verif/Model/CoreReader.lean` leaves out of `handle_errors`.
-/

namespace Mlio

/-- What the message of a `Data_reader_error` says, in the order of `core_instance_reader.cc`: 75-80, 81-86, 87-91, 92-96, 97-101.  The two special messages
for system errors when a store is opened (216-224) are counted among the last one: system errors are not told apart. -/
inductive CoreMsg where
  | tooLarge (store record : Nat)
  | corrupt (store record : Nat)
  | corruptData (store : Nat)
  | cannotRead (store : Nat)
  | system (store : Nat)
  deriving DecidableEq, Repr

/-- The message of `handle_errors`, 70-102; nothing if the exception is passed on, or if there is no data store (see `coreHandle`). -/
def coreMsg {ρ : Type} (e : Err) (s : CoreState ρ) : Option CoreMsg :=
  match s.store with
  | none => none
  | some k =>
    match e with
    | .recordTooLarge => some (.tooLarge k s.recIdx)
    | .corruptRecord | .corruptHeader | .corruptFooter => some (.corrupt k s.recIdx)
    | .streamError | .inflateError => some (.corruptData k)
    | .notSupported => some (.cannotRead k)
    | .systemError => some (.system k)
    | _ => none

/-- The message of the error that `read_instance_core`, 46-68, raises in this state, if any, and whether the nested exception is that of a corrupt split
record (168-173; once thrown it is thrown again by each read, 106-108). -/
def coreError (rm : Machine Record) (stores : List (Res (Option rm.σ))) (fuel : Nat) (s : CoreState rm.σ) : Option (CoreMsg × Bool) :=
  match readPayload rm stores fuel s with
  | (.err e, s') => (coreMsg e s').map fun m => (m, s'.corrupt)
  | _ => none

end Mlio
