import Verif.Model.CsvDecode

/-!
# What decoding CSV rows should do

Only the types of the model (`CsvCol`, `FieldLimit`) are used, none of its functions.  A field is its text and whether it
was cut at the length limit.
-/

namespace Mlio.Spec

variable {V : Type}

/-- Is the field good for the column? -/
def fieldOk (limit : FieldLimit) (c : CsvCol V) (f : Bytes × Bool) : Prop :=
  c.ignore = true ∨ ((c.parse f.1).isSome ∧ (limit = .treatAsBad → f.2 = false))

/-- A well-formed row: as many fields as columns, each good for its column. -/
def WellFormed (limit : FieldLimit) (cols : List (CsvCol V)) (fs : List (Bytes × Bool)) : Prop :=
  fs.length = cols.length ∧ ∀ x ∈ cols.zip fs, fieldOk limit x.1 x.2

instance (limit : FieldLimit) (c : CsvCol V) (f : Bytes × Bool) : Decidable (fieldOk limit c f) := by
  unfold fieldOk; infer_instance

instance (limit : FieldLimit) (cols : List (CsvCol V)) (fs : List (Bytes × Bool)) :
    Decidable (WellFormed limit cols fs) := by
  unfold WellFormed; infer_instance

/-- The values of the used fields of a row, in order. -/
def usedValues (cols : List (CsvCol V)) (fs : List (Bytes × Bool)) : List V :=
  (cols.zip fs).filterMap fun x => if x.1.ignore then none else x.1.parse x.2.1

end Mlio.Spec
