import Verif.Model.CsvSchema
import Verif.Spec.Instances

/-!
# What the header and schema options of the CSV reader mean
-/

namespace Mlio.Spec

/-- A column is read if it is in the selections that are given. -/
def Selected (o : CsvOpts) (i : Nat) (name : Bytes) : Prop :=
  (o.useIndices = [] ∨ i ∈ o.useIndices) ∧ (o.useColumns = [] ∨ name ∈ o.useColumns)

instance (o : CsvOpts) (i : Nat) (name : Bytes) : Decidable (Selected o i name) := by
  unfold Selected; infer_instance

/-- The columns that are read, in order, from column `i` on. -/
def usedFrom (o : CsvOpts) : (i : Nat) → List (Bytes × DataType) → List (Bytes × DataType)
  | _, [] => []
  | i, c :: cs => if Selected o i c.1 then c :: usedFrom o (i + 1) cs else usedFrom o (i + 1) cs

def used (o : CsvOpts) (names : List Bytes) (types : List DataType) : List (Bytes × DataType) :=
  usedFrom o 0 (names.zip types)

/-- The attribute of a column. -/
def columnAttr (batch : Nat) (c : Bytes × DataType) : Attr := ⟨c.1, c.2, [batch, 1], [1, 1], false⟩

/-- The attributes are those of the columns, in order, up to the names: the name of each extends the name of
its column, differs from the names that have been given out before (`seen`), and is the name of its column unless
that has been given out. -/
def Renamed (batch : Nat) : (seen : List Bytes) → List (Bytes × DataType) → List Attr → Prop
  | _, [], [] => True
  | seen, c :: cs, a :: as =>
    a = columnAttr batch (a.name, c.2) ∧ c.1 <+: a.name ∧ a.name ∉ seen ∧ (c.1 ∉ seen → a.name = c.1) ∧
      Renamed batch (seen ++ [a.name]) cs as
  | _, _, _ => False

/-- The type of column `i`: an override by name wins over an override by index, which wins over the type found
otherwise. -/
def overridden (o : CsvOpts) (i : Nat) (name : Bytes) (t : DataType) : DataType :=
  (o.types.lookup name).getD ((o.typesByIndex.lookup i).getD t)

/-- The types of all columns after the overrides. -/
def overriddenTypes (o : CsvOpts) (names : List Bytes) (types : List DataType) : List DataType :=
  (names.zip types).zipIdx.map (fun p => overridden o p.2 p.1.1 p.1.2)

/-- The overrides refer to columns. -/
def OverridesMatch (o : CsvOpts) (names : List Bytes) : Prop :=
  (∀ p ∈ o.typesByIndex, p.1 < names.length) ∧ (∀ p ∈ o.types, p.1 ∈ names)

instance (o : CsvOpts) (names : List Bytes) : Decidable (OverridesMatch o names) := by
  unfold OverridesMatch; infer_instance

/-- The rows that store number `k` should contribute: all of them, or all after the header row. -/
def dataRows {α : Type} (o : CsvOpts) (k : Nat) (rows : List α) : List α :=
  match o.headerRow with
  | none => rows
  | some h => if o.singleHeader ∧ k ≠ 0 then rows else rows.drop (h + 1)

/-- The types found in the first row. -/
def rowTypes (F64 : FloatLib) (o : CsvOpts) (row : Bytes) : List DataType :=
  (tokenize o.tok row).1.map (fun f => o.defaultType.getD (inferDataType F64 f.1))

/-- The header row can be split into names. -/
def HeaderOk (o : CsvOpts) (h : Nat) (rows : List Record) : Prop :=
  ∀ hdr, rows[h]? = some hdr → (tokenize o.tok hdr.payload).2 = .ok ()

/-- The names of the columns in the header row. -/
def headerNames (o : CsvOpts) (hdr : Record) : List Bytes :=
  (tokenize o.tok hdr.payload).1.map (fun f => prefixed o f.1)

/-- The stores, given by their record readers, hold the rows. -/
def Holds (rm : Machine Record) : List rm.σ → List (List Record) → Prop
  | [], [] => True
  | r :: rs, xs :: xss => rm.Yields r xs (.ok none) ∧ Holds rm rs xss
  | _, _ => False

end Mlio.Spec
