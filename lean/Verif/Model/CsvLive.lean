import Verif.Model.CsvReader

/-!
# The CSV reader that is called again after an error

`Csv_reader::make_record_reader` (`csv_reader.cc` 100-123) changes the members of the reader before it may fail: the names of the columns that come before
the error stay.  `csvCoreOver` does not have this, as it opens the data stores of an epoch all at once.  Here the core instance reader calls the factory whenever it needs
a record reader, and the members of the CSV reader are part of its state.
-/

namespace Mlio

/-- A record reader factory with a state of its own: the number of data stores, and what happens when a record reader for a data store is requested. -/
structure Opener (κ ρ : Type) where
  size : Nat
  «open» : κ → Nat → Res (Option ρ) × κ

/-- `init_next_record_reader`, `core_instance_reader.cc` 196-235, as `initNext`, but with a factory that has a state. -/
def initNextF {κ ρ : Type} (P : Opener κ ρ) (s : CoreState ρ × κ) : Res Bool × (CoreState ρ × κ) :=
  if s.1.iter < P.size then
    match P.open s.2 s.1.iter with
    | (.err e, k) => (.err e, ({ s.1 with instIdx := 0, recIdx := 0, store := some s.1.iter }, k))
    | (.ub w, k) => (.ub w, ({ s.1 with instIdx := 0, recIdx := 0, store := some s.1.iter }, k))
    | (.ok o, k) => (.ok o.isSome, ({ s.1 with instIdx := 0, recIdx := 0, store := some s.1.iter, rr := o, iter := s.1.iter + 1 }, k))
  else (.ok false, ({ s.1 with instIdx := 0, recIdx := 0, store := none, rr := none }, s.2))

/-- The loop of `read_record`, `core_instance_reader.cc` 183-193, as `recLoop`. -/
def recLoopF {κ : Type} (rm : Machine Record) (P : Opener κ rm.σ) :
    (fuel : Nat) → CoreState rm.σ × κ → Res (Option Record) × (CoreState rm.σ × κ)
  | 0, s => (.err .diverges, s)
  | fuel + 1, s =>
    match s.1.rr with
    | none => (.ub "null record reader", s)
    | some r =>
      match rm.read r with
      | (.ok (some x), r') => (.ok (some x), ({ s.1 with rr := some r', recIdx := s.1.recIdx + 1 }, s.2))
      | (.ok none, r') =>
        match initNextF P ({ s.1 with rr := some r' }, s.2) with
        | (.ok true, s') => recLoopF rm P fuel s'
        | (.ok false, s') => (.ok none, s')
        | (.err e, s') => (.err e, s')
        | (.ub w, s') => (.ub w, s')
      | (.err e, r') => (.err e, ({ s.1 with rr := some r' }, s.2))
      | (.ub w, r') => (.ub w, ({ s.1 with rr := some r' }, s.2))

/-- `read_record`, `core_instance_reader.cc` 175-194, as `readRecord`. -/
def readRecordF {κ : Type} (rm : Machine Record) (P : Opener κ rm.σ) (s : CoreState rm.σ × κ) :
    Res (Option Record) × (CoreState rm.σ × κ) :=
  match s.1.rr with
  | some _ => recLoopF rm P (P.size + 1) s
  | none =>
    match initNextF P s with
    | (.ok true, s') => recLoopF rm P (P.size + 1) s'
    | (.ok false, s') => (.ok none, s')
    | (.err e, s') => (.err e, s')
    | (.ub w, s') => (.ub w, s')

/-- The rest of `read_split_record_payload`, `core_instance_reader.cc` 139-165, as `splitLoop`. -/
def splitLoopF {κ : Type} (rm : Machine Record) (P : Opener κ rm.σ) :
    (fuel : Nat) → CoreState rm.σ × κ → List Bytes → Res (Option Bytes) × (CoreState rm.σ × κ)
  | 0, s, _ => (.err .diverges, s)
  | fuel + 1, s, acc =>
    match readRecordF rm P s with
    | (.ok (some r), s') =>
      if r.kind = 2 then splitLoopF rm P fuel s' (acc ++ [r.payload])
      else if r.kind = 3 then (.ok (some (acc ++ [r.payload]).flatten), s')
      else (.err .corruptRecord, ({ s'.1 with corrupt := true }, s'.2))
    | (.ok none, s') => (.err .corruptRecord, ({ s'.1 with corrupt := true }, s'.2))
    | (.err e, s') => (.err e, s')
    | (.ub w, s') => (.ub w, s')

/-- `read_record_payload`, `core_instance_reader.cc` 104-120, as `readPayload`. -/
def readPayloadF {κ : Type} (rm : Machine Record) (P : Opener κ rm.σ) (fuel : Nat) (s : CoreState rm.σ × κ) :
    Res (Option Bytes) × (CoreState rm.σ × κ) :=
  if s.1.corrupt then (.err .corruptRecord, ({ s.1 with corrupt := true }, s.2))
  else
    match readRecordF rm P s with
    | (.ok none, s') => (.ok none, s')
    | (.ok (some r), s') =>
      if r.kind = 0 then (.ok (some r.payload), s')
      else if r.kind = 1 then splitLoopF rm P fuel s' [r.payload]
      else (.err .corruptRecord, ({ s'.1 with corrupt := true }, s'.2))
    | (.err e, s') => (.err e, s')
    | (.ub w, s') => (.ub w, s')

/-- `read_instance_core`, `core_instance_reader.cc` 46-68, as `coreRead`. -/
def coreReadF {κ : Type} (rm : Machine Record) (P : Opener κ rm.σ) (fuel : Nat) (s : CoreState rm.σ × κ) :
    Res (Option Inst) × (CoreState rm.σ × κ) :=
  match readPayloadF rm P fuel s with
  | (.err e, s') => ((coreHandle e s'.1).1, ((coreHandle e s'.1).2, s'.2))
  | (.ub w, s') => (.ub w, s')
  | (.ok none, s') =>
    match s'.1.store with
    | some k => (.ok (some ⟨k, 0, none⟩), s')
    | none => (.ok none, s')
  | (.ok (some p), s') =>
    match s'.1.store with
    | some k => (.ok (some ⟨k, s'.1.instIdx, some p⟩), ({ s'.1 with instIdx := s'.1.instIdx + 1 }, s'.2))
    | none => (.ub "null data store", s')

/-- The factory of a `Csv_reader`, `make_record_reader`, `csv_reader.cc` 100-123; `readers` are the new record readers of the data stores. -/
def csvOpener (o : CsvOpts) (rm : Machine Record) (readers : List (Res rm.σ)) : Opener CsvState rm.σ where
  size := readers.length
  «open» := fun k i =>
    match readers[i]? with
    | none => (.ok none, k)
    | some r =>
      match makeRecordReader o rm k r with
      | (.ok r', k') => (.ok (some r'), k')
      | (.err e, k') => (.err e, k')
      | (.ub w, k') => (.ub w, k')

/-- The `Core_instance_reader` of a `Csv_reader` together with the members of the latter. -/
def csvLive (o : CsvOpts) (rm : Machine Record) (fuel : Nat) (readers : List (Res rm.σ)) : Machine Inst where
  σ := CoreState rm.σ × CsvState
  init := (.fresh, CsvState.fresh o)
  read := coreReadF rm (csvOpener o rm readers) fuel
  reset := fun s => (.fresh, s.2.reset)

end Mlio
