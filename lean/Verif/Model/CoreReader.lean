import Verif.Model.InstanceReaders
import Verif.Model.RecordIO

/-!
# The core instance reader

`src/mlio/instance_readers/core_instance_reader.cc`: turns the records of a list of data stores into instances.

The record readers are a `Machine Record` `rm` (its `init` and `reset` are not used); the record reader factory
is given by its outcome for each data store of the dataset: an exception, a null pointer (`ok none`: the
whole data store is one instance) or a record reader in its first state.
-/

namespace Mlio

/-- `Instance`, `include/mlio/instance.h` 33-85: the data store (as its position in the dataset), the index and
the bits (`none`: to be loaded from the store). -/
structure Inst where
  store : Nat
  index : Nat
  bits : Option Bytes
  deriving DecidableEq, Repr

/-- Members of `Core_instance_reader`, `core_instance_reader.h`: `store_iter_` as a position, `store_`,
`record_reader_`, `instance_idx_`, `record_idx_`, `has_corrupt_split_record_`. -/
structure CoreState (ρ : Type) where
  iter : Nat
  store : Option Nat
  rr : Option ρ
  instIdx : Nat
  recIdx : Nat
  corrupt : Bool
  deriving DecidableEq, Repr

/-- State after construction, `core_instance_reader.cc` 39-44, and after `reset_core`, 237-250. -/
def CoreState.fresh {ρ : Type} : CoreState ρ := ⟨0, none, none, 0, 0, false⟩

/-- `init_next_record_reader`, `core_instance_reader.cc` 196-235.  Translation of two system errors to
`Data_reader_error` (215-227) is left to `coreHandle`, which gives the same class. -/
def initNext {ρ : Type} (stores : List (Res (Option ρ))) (s : CoreState ρ) : Res Bool × CoreState ρ :=
  match stores[s.iter]? with
  | none => (.ok false, { s with instIdx := 0, recIdx := 0, store := none, rr := none })
  | some (.err e) => (.err e, { s with instIdx := 0, recIdx := 0, store := some s.iter })
  | some (.ub w) => (.ub w, { s with instIdx := 0, recIdx := 0, store := some s.iter })
  | some (.ok o) =>
    (.ok o.isSome, { s with instIdx := 0, recIdx := 0, store := some s.iter, rr := o, iter := s.iter + 1 })

/-- The loop of `read_record`, `core_instance_reader.cc` 183-193. -/
def recLoop (rm : Machine Record) (stores : List (Res (Option rm.σ))) :
    (fuel : Nat) → CoreState rm.σ → Res (Option Record) × CoreState rm.σ
  | 0, s => (.err .diverges, s)
  | fuel + 1, s =>
    match s.rr with
    | none => (.ub "null record reader", s)
    | some r =>
      match rm.read r with
      | (.ok (some x), r') => (.ok (some x), { s with rr := some r', recIdx := s.recIdx + 1 })
      | (.ok none, r') =>
        match initNext stores { s with rr := some r' } with
        | (.ok true, s') => recLoop rm stores fuel s'
        | (.ok false, s') => (.ok none, s')
        | (.err e, s') => (.err e, s')
        | (.ub w, s') => (.ub w, s')
      | (.err e, r') => (.err e, { s with rr := some r' })
      | (.ub w, r') => (.ub w, { s with rr := some r' })

/-- `read_record`, `core_instance_reader.cc` 175-194.  Every iteration of the loop moves on to another store, so
one more than the number of stores is enough fuel. -/
def readRecord (rm : Machine Record) (stores : List (Res (Option rm.σ))) (s : CoreState rm.σ) :
    Res (Option Record) × CoreState rm.σ :=
  match s.rr with
  | some _ => recLoop rm stores (stores.length + 1) s
  | none =>
    match initNext stores s with
    | (.ok true, s') => recLoop rm stores (stores.length + 1) s'
    | (.ok false, s') => (.ok none, s')
    | (.err e, s') => (.err e, s')
    | (.ub w, s') => (.ub w, s')

/-- `throw_corrupt_split_record_error`, `core_instance_reader.cc` 168-173. -/
def throwCorrupt {ρ α : Type} (s : CoreState ρ) : Res α × CoreState ρ :=
  (.err .corruptRecord, { s with corrupt := true })

/-- The rest of `read_split_record_payload`, `core_instance_reader.cc` 139-165: middle records, the end record and
the concatenation.  The fuel bounds the number of middle records. -/
def splitLoop (rm : Machine Record) (stores : List (Res (Option rm.σ))) :
    (fuel : Nat) → CoreState rm.σ → List Bytes → Res (Option Bytes) × CoreState rm.σ
  | 0, s, _ => (.err .diverges, s)
  | fuel + 1, s, acc =>
    match readRecord rm stores s with
    | (.ok (some r), s') =>
      if r.kind = 2 then splitLoop rm stores fuel s' (acc ++ [r.payload])
      else if r.kind = 3 then (.ok (some (acc ++ [r.payload]).flatten), s')
      else throwCorrupt s'
    | (.ok none, s') => throwCorrupt s'
    | (.err e, s') => (.err e, s')
    | (.ub w, s') => (.ub w, s')

/-- `read_record_payload`, `core_instance_reader.cc` 104-120, with the first part of
`read_split_record_payload`, 122-137. -/
def readPayload (rm : Machine Record) (stores : List (Res (Option rm.σ))) (fuel : Nat)
    (s : CoreState rm.σ) : Res (Option Bytes) × CoreState rm.σ :=
  if s.corrupt then throwCorrupt s
  else
    match readRecord rm stores s with
    | (.ok none, s') => (.ok none, s')
    | (.ok (some r), s') =>
      if r.kind = 0 then (.ok (some r.payload), s')
      else if r.kind = 1 then splitLoop rm stores fuel s' [r.payload]
      else throwCorrupt s'
    | (.err e, s') => (.err e, s')
    | (.ub w, s') => (.ub w, s')

/-- The exception classes that `handle_errors` translates. -/
def Err.translated : Err → Bool
  | .recordTooLarge | .corruptRecord | .corruptHeader | .corruptFooter | .streamError | .inflateError
  | .notSupported | .systemError => true
  | _ => false

/-- `handle_errors`, `core_instance_reader.cc` 70-102: a `Data_reader_error` whose message names the data store,
`store_->id()`, which is a null pointer dereference if there is none. -/
def coreHandle {ρ : Type} (e : Err) (s : CoreState ρ) : Res (Option Inst) × CoreState ρ :=
  if e.translated then
    match s.store with
    | some _ => (.err .dataReader, s)
    | none => (.ub "null data store", s)
  else (.err e, s)

/-- `read_instance_core`, `core_instance_reader.cc` 46-68. -/
def coreRead (rm : Machine Record) (stores : List (Res (Option rm.σ))) (fuel : Nat)
    (s : CoreState rm.σ) : Res (Option Inst) × CoreState rm.σ :=
  match readPayload rm stores fuel s with
  | (.err e, s') => coreHandle e s'
  | (.ub w, s') => (.ub w, s')
  | (.ok none, s') =>
    match s'.store with
    | some k => (.ok (some ⟨k, 0, none⟩), s')
    | none => (.ok none, s')
  | (.ok (some p), s') =>
    match s'.store with
    | some k => (.ok (some ⟨k, s'.instIdx, some p⟩), { s' with instIdx := s'.instIdx + 1 })
    | none => (.ub "null data store", s')

/-- `Core_instance_reader`. -/
def coreReader (rm : Machine Record) (stores : List (Res (Option rm.σ))) (fuel : Nat) : Machine Inst where
  σ := CoreState rm.σ
  init := .fresh
  read := coreRead rm stores fuel
  reset := fun _ => .fresh

end Mlio
