import Verif.Spec.CsvDecode
import Verif.Model.Warnings

/-!
# Which warnings a CSV reader should give
-/

namespace Mlio.Spec

variable {V : Type}

/-- What is wrong with a row: its first used field that is too long or cannot be parsed, or else its number of fields. -/
def rowFault (limit : FieldLimit) (cols : List (CsvCol V)) (fs : List (Bytes × Bool)) : Option RowFault :=
  match (cols.zip fs).zipIdx.find? (fun x => ¬ fieldOk limit x.1.1 x.1.2) with
  | some (x, i) => some (if x.2.2 = true ∧ limit = .treatAsBad then .tooLong i x.2.1 else .unparsable i x.2.1)
  | none => if fs.length = cols.length then none else some (.columns fs.length cols.length)

/-- The used fields that were cut, up to the first one that cannot be parsed, if that is to be told. -/
def cutFields (limit : FieldLimit) (cols : List (CsvCol V)) (fs : List (Bytes × Bool)) : List RowFault :=
  if limit = .truncateWarn then
    ((cols.zip fs).zipIdx.take ((cols.zip fs).findIdx (fun x => ¬ fieldOk limit x.1 x.2) + 1)).filterMap fun x =>
      if x.1.1.ignore = false ∧ x.1.2.2 = true then some (.tooLong x.2 x.1.2.1) else none
  else []

/-- The messages about a row with these fields: `warnBad` says whether those about bad rows are wanted. -/
def rowMessages (tok : TokParams) (limit : FieldLimit) (warnBad : Bool) (cols : List (CsvCol V)) (i : Inst) : List CsvMsg :=
  (cutFields limit cols (tokenize tok (i.bits.getD [])).1 ++
    (if warnBad then (rowFault limit cols (tokenize tok (i.bits.getD [])).1).toList else [])).map (.row i.store i.index)

/-- The row is well-formed. -/
def GoodRow (tok : TokParams) (limit : FieldLimit) (cols : List (CsvCol V)) (i : Inst) : Prop :=
  WellFormed limit cols (tokenize tok (i.bits.getD [])).1

instance (tok : TokParams) (limit : FieldLimit) (cols : List (CsvCol V)) (i : Inst) : Decidable (GoodRow tok limit cols i) := by
  unfold GoodRow; infer_instance

/-- The rows up to and with the first that is not well-formed: all of them, if there is none. -/
def upToBad (tok : TokParams) (limit : FieldLimit) (cols : List (CsvCol V)) (is : List Inst) : List Inst :=
  is.take (is.findIdx (fun i => ¬ GoodRow tok limit cols i) + 1)

/-- The levels of the messages that are to be logged at a level. -/
def levelsAt : LogLevel → List LogLevel
  | .off => [.off]
  | .warning => [.off, .warning]
  | .info => [.off, .warning, .info]
  | .debug => [.off, .warning, .info, .debug]

end Mlio.Spec
