import Verif.Model.TextLineReader
import Verif.Model.CsvSchema
import Verif.Model.CsvDecode

/-!
# The CSV reader as a whole

`src/mlio/csv_reader.cc` over the core instance reader: opening the data stores of an epoch changes the members of the
CSV reader (names from the header, whether a header is still to be read), and a reset does not undo all of it.
-/

namespace Mlio

/-- What the core instance reader gets for the data stores of an epoch, `csv_reader.cc` 100-123, if the earlier epochs
have opened as many data stores as `history` says; `readers` are the new record readers. -/
def openEpoch (o : CsvOpts) (rm : Machine Record) (readers : List (Res rm.σ)) (history : List Nat) :
    List (Res (Option rm.σ)) :=
  (openAll o rm (afterEpochs o rm readers (CsvState.fresh o) history) readers).1.map fun r =>
    match r with
    | .ok r => .ok (some r)
    | .err e => .err e
    | .ub w => .ub w

/-- The `Core_instance_reader` of a `Csv_reader`, given by the record readers that are made of its data stores, or the
exceptions.  The members of the CSV reader at the start of the epoch are given by the history of earlier epochs
(`afterEpochs`): they depend on nothing else, as the data stores are opened in order.
Simplification: a data store that could not be opened does not count as opened. -/
def csvCoreOver (codec : String → Codec) (m : SrcClass) (p : CsvParams) (o : CsvOpts) (fuel : Nat)
    (readers : List (Res (LineReader codec m fuel))) : Machine Inst where
  σ := CoreState (LineReader codec m fuel) × List Nat
  init := (.fresh, [])
  read := fun s =>
    let (x, c) := coreRead (lineMachine codec m (csvDecode p) fuel)
      (openEpoch o (lineMachine codec m (csvDecode p) fuel) readers s.2) fuel s.1
    (x, (c, s.2))
  reset := fun s => (.fresh, s.2 ++ [s.1.iter])

/-- The same for a dataset given by the streams that its data stores open, with the record readers made by
`make_utf8_stream` and `Csv_record_reader`, `csv_reader.cc` 102-104. -/
def csvCore (codec : String → Codec) (m : SrcClass) (p : CsvParams) (o : CsvOpts) (encoding : Option String) (fuel : Nat)
    (files : List m.σ) : Machine Inst :=
  csvCoreOver codec m p o fuel (files.map (openLines codec m fuel encoding))

/-- `f` is a decode function of the CSV reader: every outcome is one that `Csv_reader::decode`, `csv_reader.cc` 416-470, can
have for the batch, serially or in parallel. -/
def CsvDecodes {V : Type} (tok : TokParams) (limit : FieldLimit) (warnBad : Bool) (h : BadHandling)
    (cols : List (CsvCol V)) (dflt : V) (f : Batch Inst → Except Err (Option (CsvExample V))) : Prop :=
  ∀ q, ∃ o, DecodeBatch tok limit warnBad h cols dflt q.size (q.instances.map fun i => i.bits.getD []) o ∧
    f q = toDecode (fun _ => o) q

end Mlio
