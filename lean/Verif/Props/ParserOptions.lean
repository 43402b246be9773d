import Verif.Proofs.ParserOptions
import Verif.Props.Number

/-! # C85: the parser options -/

namespace Mlio

open Spec

/-! ## The types of columns -/

/-- **C38** for the columns of a dataset: a field of a column of an integer type has the value `v` exactly if it is a decimal integer with this value
that the type can hold, without a minus sign if the type is unsigned. -/
theorem C38_columns (F32 F64 : FloatLib) (o : ParserOptions) (dt : DataType) (signed : Bool) (bits : Nat)
    (ht : IntegerType dt signed bits) (s : Bytes) (v : Int) :
    parserOf F32 F64 o dt s = .ok (.int v) ↔
      ∃ t : IntText, t.Valid ∧ t.bytes = s ∧ t.value = v ∧ InRange signed bits v ∧ (signed = false → t.sign ≠ .minus) := by
  have hk : intKind dt = some ⟨signed, bits⟩ := by cases ht <;> rfl
  rw [parserOf_int F32 F64 o dt _ hk, C38_exact]

/-- **C38**: columns of other types hold no integers. -/
theorem C38_other_columns (F32 F64 : FloatLib) (o : ParserOptions) (dt : DataType) (ht : ∀ signed bits, ¬ IntegerType dt signed bits)
    (s : Bytes) (v : Int) : parserOf F32 F64 o dt s ≠ .ok (.int v) := by
  cases dt
  case int8 => exact absurd .int8 (ht _ _)
  case int16 => exact absurd .int16 (ht _ _)
  case int32 => exact absurd .int32 (ht _ _)
  case int64 => exact absurd .int64 (ht _ _)
  case uint8 => exact absurd .uint8 (ht _ _)
  case uint16 => exact absurd .uint16 (ht _ _)
  case uint32 => exact absurd .uint32 (ht _ _)
  case uint64 => exact absurd .uint64 (ht _ _)
  case size => exact absurd .size (ht _ _)
  all_goals
    simp only [parserOf, intKind]
    try (split <;> simp)
  all_goals simp

-- 255 fits in an unsigned byte and not in a signed one.
example : parserOf toyFloat toyFloat {} .uint8 [50, 53, 53] = .ok (.int 255) ∧
    parserOf toyFloat toyFloat {} .int8 [50, 53, 53] = .overflowed ∧ IntegerType .uint8 false 8 ∧
    ∀ signed bits, ¬ IntegerType .string signed bits := ⟨rfl, rfl, .uint8, fun _ _ h => by cases h⟩

/-! ## `number_base` -/

/-- **C85.** With `number_base = 10` a field of an integer column has the value `v` exactly if it is an integer in that base
with this value, and the column can hold it.  (Partial: see `C85_base_violated`.) -/
theorem C85_base_partial (F32 F64 : FloatLib) (o : ParserOptions) (ho : o.base = 10) (dt : DataType) (signed : Bool) (bits : Nat)
    (ht : IntegerType dt signed bits) (s : Bytes) (v : Int) :
    parserOf F32 F64 o dt s = .ok (.int v) ↔
      ∃ t : BaseText, t.Valid o.base ∧ t.bytes = s ∧ t.value o.base = v ∧ InRange signed bits v ∧
        (signed = false → t.sign ≠ .minus) := by
  have hk : intKind dt = some ⟨signed, bits⟩ := by cases ht <;> rfl
  rw [parserOf_int F32 F64 o dt _ hk, C38_exact, ho]
  constructor
  · rintro ⟨u, hv, rfl, rfl, h1, h2⟩
    obtain ⟨t, ht, hb, hval, hs⟩ := intText_ten u hv
    exact ⟨t, ht, hb, hval, hval ▸ h1, hs ▸ h2⟩
  · rintro ⟨t, hv, rfl, rfl, h1, h2⟩
    obtain ⟨u, hu, hb, hval, hs⟩ := baseText_ten t hv
    exact ⟨u, hu, hb, hval, h1, hs ▸ h2⟩

/-- **C85** is false of `number_base`: for every other base, the text `10` is an integer in that base, whose value is the
base, but every integer column takes it for ten.  The base has no effect at all. -/
theorem C85_base_violated (F32 F64 : FloatLib) (nans : List Bytes) (b : Nat) (hb : 2 ≤ b) (hb' : b ≠ 10) (dt : DataType)
    (signed : Bool) (bits : Nat) (ht : IntegerType dt signed bits) :
    (∃ t : BaseText, t.Valid b ∧ t.bytes = [49, 48] ∧ t.value b = b ∧ (b : Int) ≠ 10 ∧
      parserOf F32 F64 { nans := nans, base := b } dt t.bytes = .ok (.int 10)) ∧
    ∀ s b', parserOf F32 F64 { nans := nans, base := b } dt s = parserOf F32 F64 { nans := nans, base := b' } dt s := by
  refine ⟨⟨⟨[], .none, [49, 48], []⟩, ⟨by simp [White], by simp, ?_, by simp [White]⟩, rfl, ?_, by omega, ?_⟩, fun _ _ => rfl⟩
  · intro c hc
    simp only [List.mem_cons, List.not_mem_nil, or_false] at hc
    rcases hc with rfl | rfl
    · exact ⟨1, by decide, by omega⟩
    · exact ⟨0, by decide, by omega⟩
  · simp [BaseText.value, digitOf]
  · have hk : intKind dt = some ⟨signed, bits⟩ := by cases ht <;> rfl
    rw [parserOf_int F32 F64 _ dt _ hk]
    cases ht <;> decide

-- `ff` in base 16 is refused.
example : parserOf toyFloat toyFloat { base := 16 } .int32 [102, 102] = .failed ∧
    (⟨[], .none, [102, 102], []⟩ : BaseText).Valid 16 ∧ (⟨[], .none, [102, 102], []⟩ : BaseText).value 16 = 255 :=
  ⟨rfl, ⟨by simp [White], by simp, by
    intro c hc
    have : c = 102 := by simpa using hc
    subst this
    exact ⟨15, by decide, by decide⟩, by simp [White]⟩, by decide⟩

/-! ## `nan_values` -/

/-- **C85.** A field of a floating-point column that is no number is "not a number" exactly if the field, without the white
space around it, is among `nan_values`, and is refused otherwise.  (Partial: see `C85_nan_violated`.) -/
theorem C85_nan_partial (F32 F64 : FloatLib) (o : ParserOptions) (s : Bytes) :
    (F32.atof s = none →
      ((∃ w ∈ o.nans, StrippedOf w s) → parserOf F32 F64 o .float32 s = .ok (.f32 F32.nan)) ∧
      ((∀ w ∈ o.nans, ¬ StrippedOf w s) → parserOf F32 F64 o .float32 s = .failed)) ∧
    (F64.atof s = none →
      ((∃ w ∈ o.nans, StrippedOf w s) → parserOf F32 F64 o .float64 s = .ok (.f64 F64.nan)) ∧
      ((∀ w ∈ o.nans, ¬ StrippedOf w s) → parserOf F32 F64 o .float64 s = .failed)) := by
  have hin : (∃ w ∈ o.nans, StrippedOf w s) → o.nans.contains (trim s) = true := by
    rintro ⟨w, hw, hs⟩
    rw [trim_stripped hs]
    exact List.contains_iff_mem.2 hw
  have hout : (∀ w ∈ o.nans, ¬ StrippedOf w s) → o.nans.contains (trim s) = false := by
    intro h
    cases hc : o.nans.contains (trim s) with
    | false => rfl
    | true => exact absurd (stripped_trim s) (h _ (List.contains_iff_mem.1 hc))
  refine ⟨fun h => ⟨fun hw => ?_, fun hw => ?_⟩, fun h => ⟨fun hw => ?_, fun hw => ?_⟩⟩
  · simp only [parserOf, tryParseFloat, h, hin hw, if_true]
  · simp only [parserOf, tryParseFloat, h, hout hw, Bool.false_eq_true, if_false]
  · simp only [parserOf, tryParseFloat, h, hin hw, if_true]
  · simp only [parserOf, tryParseFloat, h, hout hw, Bool.false_eq_true, if_false]

/-- **C85.** A field of a floating-point column that is a number has its value, unless it is infinite. -/
theorem C85_numbers (F32 F64 : FloatLib) (o : ParserOptions) (s : Bytes) :
    (∀ x, F32.atof s = some x →
      parserOf F32 F64 o .float32 s = if F32.isInf x then .overflowed else .ok (.f32 x)) ∧
    (∀ x, F64.atof s = some x →
      parserOf F32 F64 o .float64 s = if F64.isInf x then .overflowed else .ok (.f64 x)) := by
  refine ⟨fun x h => ?_, fun x h => ?_⟩
  · cases hi : F32.isInf x <;> simp [parserOf, tryParseFloat, h, hi]
  · cases hi : F64.isInf x <;> simp [parserOf, tryParseFloat, h, hi]

/-- **C85** is false of `nan_values` that are numbers, such as `-999` or `0`: a field equal to one of them has that value. -/
theorem C85_nan_violated (F32 F64 : FloatLib) (w : Bytes) (nans : List Bytes) (hw : w ∈ nans) (x : F64.F)
    (hx : F64.atof w = some x) (hfin : F64.isInf x = false) (hnan : x ≠ F64.nan) (base : Nat) :
    parserOf F32 F64 { nans := nans, base := base } .float64 w ≠ .ok (.f64 F64.nan) ∧
    parserOf F32 F64 { nans := nans, base := base } .float64 w = .ok (.f64 x) := by
  have h : parserOf F32 F64 { nans := nans, base := base } .float64 w = .ok (.f64 x) := by
    rw [(C85_numbers F32 F64 _ w).2 x hx, hfin]
    rfl
  refine ⟨?_, h⟩
  rw [h]
  intro h'
  injection h' with h'
  injection h' with h'
  exact hnan h'

/-- **C85** is false of `nan_values` that begin or end with white space: the field that is equal to one is refused. -/
theorem C85_nan_space_violated (F32 F64 : FloatLib) (w : Bytes) (h : F64.atof w = none)
    (hw : (∃ c, w.head? = some c ∧ White [c]) ∨ ∃ c, w.getLast? = some c ∧ White [c]) (base : Nat) :
    parserOf F32 F64 { nans := [w], base := base } .float64 w = .failed := by
  refine ((C85_nan_partial F32 F64 { nans := [w], base := base } w).2 h).2 ?_
  intro v hv hs
  have : v = w := by simpa using hv
  subst this
  obtain ⟨_, _, _, _, _, h1, h2⟩ := hs
  rcases hw with ⟨c, hc, hcw⟩ | ⟨c, hc, hcw⟩
  · exact h1 c hc hcw
  · exact h2 c hc hcw

-- `NA` with a blank before it is "not a number"; `999` in `nan_values` is not.
example : parserOf toyFloat toyFloat { nans := [[78, 65]] } .float64 [32, 78, 65] = .ok (.f64 toyFloat.nan) ∧
    StrippedOf [78, 65] [32, 78, 65] :=
  ⟨rfl, ⟨[32], [], rfl, by simp [White], by simp [White], by simp [White], by simp [White]⟩⟩

end Mlio
