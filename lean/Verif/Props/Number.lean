import Verif.Proofs.Number

/-! # C37, C38: number parsing and data type inference -/

namespace Mlio

open Spec

/-! ## C38 -/

/-- **C38.** Parsing an integer of the given signedness and width yields `v` if and only if the text is a decimal integer
(white space, sign, digits, white space; no minus sign for unsigned types) whose value is `v` and `v` is in the
range of the type. -/
theorem C38_exact (k : IntKind) (s : Bytes) (v : Int) :
    tryParseInt k s = .ok v ↔
      ∃ t : IntText, t.Valid ∧ t.bytes = s ∧ t.value = v ∧ InRange k.signed k.bits v ∧
        (k.signed = false → t.sign ≠ .minus) := by
  constructor
  · intro h
    obtain ⟨t, hv, rfl⟩ := tryParseInt_ok k s v h
    rw [tryParseInt_intText k t hv] at h
    split at h
    · rename_i hr
      injection h with h
      subst h
      exact ⟨t, hv, rfl, rfl, hr.1, hr.2⟩
    · simp at h
  · rintro ⟨t, hv, rfl, rfl, h1, h2⟩
    rw [tryParseInt_intText k t hv, if_pos ⟨h1, h2⟩]

/-- **C38.** An integer that is out of range is reported as overflow. -/
theorem C38_out_of_range (k : IntKind) (t : IntText) (hv : t.Valid) (h : ¬ InRange k.signed k.bits t.value) :
    tryParseInt k t.bytes = .overflowed := by
  rw [tryParseInt_intText k t hv, if_neg (fun hh => h hh.1)]

-- ` -128` and `+0255`, and what is just out of range.
example : tryParseInt ⟨true, 8⟩ [32, 45, 49, 50, 56] = .ok (-128) ∧
    tryParseInt ⟨false, 8⟩ [43, 48, 50, 53, 53] = .ok 255 ∧
    tryParseInt ⟨true, 8⟩ [45, 49, 50, 57] = .overflowed ∧
    tryParseInt ⟨false, 64⟩ [49, 56, 52, 52, 54, 55, 52, 52, 48, 55, 51, 55, 48, 57, 53, 53, 49, 54, 49, 54] =
      .overflowed ∧
    tryParseInt ⟨true, 8⟩ [49, 50, 97] = .failed := by decide

example : (⟨[32], .minus, [1, 2, 8], []⟩ : IntText).Valid ∧
    (⟨[32], .minus, [1, 2, 8], []⟩ : IntText).bytes = [32, 45, 49, 50, 56] ∧
    (⟨[32], .minus, [1, 2, 8], []⟩ : IntText).value = -128 ∧ InRange true 8 (-128) :=
  ⟨⟨by simp [White], by simp, by simp [White]⟩, by decide, by decide, by decide⟩

/-- Overflow is also reported for text that is no integer: `abc` as unsigned, and `2147483647a` as signed.  (The
callers treat failure and overflow alike, except `infer_data_type`, which then tries another type.) -/
theorem C38_overflow_is_not_exact :
    tryParseInt ⟨false, 32⟩ [97, 98, 99] = .overflowed ∧
    tryParseInt ⟨true, 32⟩ [50, 49, 52, 55, 52, 56, 51, 54, 52, 55, 97] = .overflowed ∧
    tryParseInt ⟨false, 32⟩ [45, 48] = .overflowed := by decide

/-! ## C37 -/

/-- **C37.** The parser of the type that is inferred for a field accepts that field, whatever the parser options and the
floating-point library are. -/
theorem C37_inferred_type_parses (F32 F64 : FloatLib) (o : ParserOptions) (s : Bytes) :
    ∃ v, parserOf F32 F64 o (inferDataType F64 s) s = .ok v := by
  have hfloat : ∀ v, tryParseFloat F64 [] s = .ok v → tryParseFloat F64 o.nans s = .ok v := by
    intro v h
    unfold tryParseFloat at h ⊢
    split at h
    · simp at h
    · exact h
  have hf : ∃ v, parserOf F32 F64 o
      (match tryParseFloat F64 [] s with
        | .ok _ => .float64
        | _ => .string) s = .ok v := by
    cases h : tryParseFloat F64 [] s with
    | ok v => exact ⟨.f64 v, by simp only [parserOf, hfloat v h]⟩
    | failed => exact ⟨_, rfl⟩
    | overflowed => exact ⟨_, rfl⟩
  unfold inferDataType
  split
  · exact ⟨_, rfl⟩
  · cases h1 : tryParseInt ⟨true, 64⟩ s with
    | ok v => exact ⟨.int v, by simp only [parserOf, intKind, h1]⟩
    | failed => exact hf
    | overflowed =>
      simp only
      cases h2 : tryParseInt ⟨false, 64⟩ s with
      | ok v => exact ⟨.int v, by simp only [parserOf, intKind, h2]⟩
      | failed => exact hf
      | overflowed => exact hf

/-- **C37.** For text that is an integer, the inferred type is the 64-bit signed one if the value is in its range, else
the unsigned one if it is in its range. -/
theorem C37_integers_are_inferred (F64 : FloatLib) (t : IntText) (hv : t.Valid) :
    (InRange true 64 t.value → inferDataType F64 t.bytes = .int64) ∧
    (¬ InRange true 64 t.value → InRange false 64 t.value → inferDataType F64 t.bytes = .uint64) := by
  have hne : t.bytes.isEmpty = false := by
    have := hv.digits
    cases hd : t.digits with
    | nil => exact absurd hd this
    | cons d ds => simp [IntText.bytes, hd]
  unfold inferDataType
  rw [hne, tryParseInt_intText ⟨true, 64⟩ t hv, tryParseInt_intText ⟨false, 64⟩ t hv]
  constructor
  · intro h
    simp [h]
  · intro h1 h2
    have hs : t.sign ≠ .minus := by
      intro hs
      have h3 := value_nonpos t hs
      have h4 : 0 ≤ t.value ∧ t.value < 2 ^ 64 := by simpa [InRange] using h2
      exact h1 (by simp [InRange]; omega)
    simp [h1, h2, hs]

/-- **C37.** The inferred type is exactly the kind of the text: integers that fit are integers, other finite numbers
are `float64`, and everything else is text. -/
theorem C37_exact (F64 : FloatLib) (s : Bytes) (t : DataType) :
    inferDataType F64 s = t ↔ TextKind (fun s => ∃ v, F64.atof s = some v ∧ F64.isInf v = false) s t := by
  have hs : IsInteger true 64 s ↔ ∃ v, tryParseInt ⟨true, 64⟩ s = .ok v := by
    constructor
    · rintro ⟨t, h1, h2, h3⟩
      exact ⟨t.value, (C38_exact ⟨true, 64⟩ s t.value).2 ⟨t, h1, h2, rfl, h3, by simp⟩⟩
    · rintro ⟨v, h⟩
      obtain ⟨t, h1, h2, rfl, h3, _⟩ := (C38_exact ⟨true, 64⟩ s v).1 h
      exact ⟨t, h1, h2, h3⟩
  have hu : IsInteger false 64 s → IsInteger true 64 s ∨ (tryParseInt ⟨true, 64⟩ s = .overflowed ∧
      ∃ v, tryParseInt ⟨false, 64⟩ s = .ok v) := by
    rintro ⟨t, h1, rfl, h3⟩
    by_cases h4 : InRange true 64 t.value
    · exact .inl ⟨t, h1, rfl, h4⟩
    · refine .inr ⟨C38_out_of_range ⟨true, 64⟩ t h1 h4, t.value, ?_⟩
      refine (C38_exact ⟨false, 64⟩ _ t.value).2 ⟨t, h1, rfl, rfl, h3, fun _ hm => h4 ?_⟩
      have h5 := value_nonpos t hm
      have h6 : 0 ≤ t.value ∧ t.value < 2 ^ 64 := by simpa [InRange] using h3
      simp only [InRange, if_pos]
      omega
  have hu' : ∀ v, tryParseInt ⟨false, 64⟩ s = .ok v → IsInteger false 64 s := by
    intro v h
    obtain ⟨t, h1, h2, rfl, h3, _⟩ := (C38_exact ⟨false, 64⟩ s v).1 h
    exact ⟨t, h1, h2, h3⟩
  have hne : ∀ b, IsInteger b 64 s → s ≠ [] := by
    rintro b ⟨t, h1, rfl, _⟩ h
    have := h1.digits
    simp [IntText.bytes] at h
    exact this h.2.2.1
  have hf : (∃ v, F64.atof s = some v ∧ F64.isInf v = false) ↔ ∃ v, tryParseFloat F64 [] s = .ok v := by
    unfold tryParseFloat
    cases F64.atof s with
    | none => simp
    | some v => cases hi : F64.isInf v <;> simp [hi]
  have hex : TextKind (fun s => ∃ v, F64.atof s = some v ∧ F64.isInf v = false) s (inferDataType F64 s) := by
    have hfl : ¬ IsInteger true 64 s → ¬ IsInteger false 64 s → s ≠ [] →
        TextKind (fun s => ∃ v, F64.atof s = some v ∧ F64.isInf v = false) s
          (match tryParseFloat F64 [] s with | .ok _ => .float64 | _ => .string) := by
      intro h1 h2 h3
      split
      · rename_i v h
        exact .float h1 h2 h3 (hf.2 ⟨v, h⟩)
      · rename_i h
        exact .text h1 h2 (.inr fun h' => by
          obtain ⟨v, hv⟩ := hf.1 h'
          exact h v hv)
    unfold inferDataType
    by_cases h0 : s = []
    · subst h0
      exact .text (fun h => hne _ h rfl) (fun h => hne _ h rfl) (.inl rfl)
    · rw [if_neg (by simpa using h0)]
      cases h1 : tryParseInt ⟨true, 64⟩ s with
      | ok v => exact .int (hs.2 ⟨v, h1⟩)
      | failed =>
        have hn : ¬ IsInteger true 64 s := fun h => by obtain ⟨v, hv⟩ := hs.1 h; rw [h1] at hv; cases hv
        exact hfl hn (fun h => (hu h).elim hn fun h => by rw [h1] at h; cases h.1) h0
      | overflowed =>
        have hn : ¬ IsInteger true 64 s := fun h => by obtain ⟨v, hv⟩ := hs.1 h; rw [h1] at hv; cases hv
        simp only
        cases h2 : tryParseInt ⟨false, 64⟩ s with
        | ok v => exact .uint hn (hu' v h2)
        | failed => exact hfl hn (fun h => (hu h).elim hn fun h => by obtain ⟨_, v, hv⟩ := h; rw [h2] at hv; cases hv) h0
        | overflowed =>
          exact hfl hn (fun h => (hu h).elim hn fun h => by obtain ⟨_, v, hv⟩ := h; rw [h2] at hv; cases hv) h0
  constructor
  · rintro rfl
    exact hex
  · intro h
    revert hex
    generalize inferDataType F64 s = t'
    intro hex
    cases hex <;> cases h <;> first | rfl | contradiction | (rename_i a b c; cases c <;> contradiction) | skip
    all_goals simp_all

/-- A floating-point library for examples: it parses `x` as a number and `i` as infinity. -/
def toyFloat : FloatLib where
  F := Nat
  atof := fun s => if s = [120] then some 0 else if s = [105] then some 1 else none
  isInf := fun v => v == 1
  nan := 2

example : inferDataType toyFloat [49, 50] = .int64 ∧ inferDataType toyFloat [120] = .float64 ∧
    inferDataType toyFloat [105] = .string ∧ inferDataType toyFloat [] = .string ∧
    inferDataType toyFloat [49, 56, 52, 52, 54, 55, 52, 52, 48, 55, 51, 55, 48, 57, 53, 53, 49, 54, 49, 53] =
      .uint64 := by decide

end Mlio
