import Verif.Proofs.Decimal
import Verif.Props.Number

/-! # C113: numbers in floating-point columns -/

namespace Mlio

open Spec

theorem single_good : ieeeSingle.Good := ⟨by decide, by decide⟩

theorem double_good : ieeeDouble.Good := ⟨by decide, by decide⟩

theorem binary32_eq : binary32 = ieeeSingle := rfl

theorem binary64_eq : binary64 = ieeeDouble := rfl

theorem floatColumn_parser (h : FloatColumn dt f mk) (o : ParserOptions) (s : Bytes) :
    parserOf (ieee binary32) (ieee binary64) o dt s =
      (match simpleAtof f s with
      | none => if o.nans.contains (trim s) then .ok (mk .nan) else .failed
      | some v => if v.isInf then .overflowed else .ok (mk v)) ∧ f.Good := by
  cases h
  · refine ⟨?_, single_good⟩
    rw [binary32_eq]
    unfold parserOf tryParseFloat ieee
    simp only
    cases simpleAtof ieeeSingle s with
    | none => by_cases hc : o.nans.contains (trim s) = true <;> simp only [hc, if_true, if_false, Bool.false_eq_true]
    | some v => by_cases hc : v.isInf = true <;> simp only [hc, if_true, if_false, Bool.false_eq_true]
  · refine ⟨?_, double_good⟩
    rw [binary64_eq]
    unfold parserOf tryParseFloat ieee
    simp only
    cases simpleAtof ieeeDouble s with
    | none => by_cases hc : o.nans.contains (trim s) = true <;> simp only [hc, if_true, if_false, Bool.false_eq_true]
    | some v => by_cases hc : v.isInf = true <;> simp only [hc, if_true, if_false, Bool.false_eq_true]

theorem tooLarge_sign (f : FloatFormat) (b : Prop) [Decidable b] (q : ℚ) : TooLarge f ((if b then -1 else 1) * q) ↔ TooLarge f q := by
  unfold TooLarge
  split
  · rw [neg_one_mul, abs_neg]
  · rw [one_mul]

/-- **C113.** A number in a `float32` or `float64` column is read as the number of that type that is nearest to it, the even one of two, with its sign; numbers that are beyond the
range are refused as too large. -/
theorem C113_nearest (h : FloatColumn dt f mk) (o : ParserOptions) (t : NumText) (hv : t.Valid) :
    (TooLarge f t.value → parserOf (ieee binary32) (ieee binary64) o dt t.bytes = .overflowed) ∧
    (¬ TooLarge f t.value → ∃ v r, parserOf (ieee binary32) (ieee binary64) o dt t.bytes = .ok (mk v) ∧
      Flt.value v = some r ∧ Nearest f t.value r ∧ (Flt.minus v = true ↔ t.sign = .minus)) := by
  obtain ⟨hp, hg⟩ := floatColumn_parser h o t.bytes
  obtain ⟨a, d, hd, hs, hval⟩ := simpleAtof_number f t hv
  obtain ⟨h1, h2⟩ := toFlt_spec f hg (decide (t.sign = .minus)) a d hd
  rw [hp, hs, hval, tooLarge_sign]
  constructor
  · intro ht
    simp [h1 ht, Flt.isInf]
  · intro ht
    obtain ⟨m, e, hm, hn⟩ := h2 ht
    refine ⟨.num (decide (t.sign = .minus)) m e, _, by simp [hm, Flt.isInf], rfl, ?_, by simp [Flt.minus]⟩
    by_cases hsg : t.sign = .minus
    · simp only [hsg, decide_true, if_true, neg_one_mul]
      exact hn.neg
    · simp only [hsg, decide_false, if_false, one_mul, Bool.false_eq_true]
      exact hn

/-- **C113.** What is too large: the numbers, and the texts for infinities.  They are never read as infinities. -/
theorem C113_overflow (h : FloatColumn dt f mk) (o : ParserOptions) (s : Bytes) :
    parserOf (ieee binary32) (ieee binary64) o dt s = .overflowed ↔ (∃ t : NumText, t.Valid ∧ t.bytes = s ∧ TooLarge f t.value) ∨ IsInfText s := by
  obtain ⟨hp, hg⟩ := floatColumn_parser h o s
  constructor
  · intro ho
    rw [hp] at ho
    cases hs : simpleAtof f s with
    | none => rw [hs] at ho; simp only at ho; split at ho <;> simp at ho
    | some v =>
      cases v with
      | inf neg =>
        rcases simpleAtof_inf f s neg hs with ⟨t, hv, rfl⟩ | h'
        · left
          refine ⟨t, hv, rfl, ?_⟩
          by_contra hc
          obtain ⟨v, r, hok, -⟩ := (C113_nearest h o t hv).2 hc
          rw [hp, ho] at hok
          cases hok
        · exact .inr h'
      | num neg m e => rw [hs] at ho; simp [Flt.isInf] at ho
      | nan => rw [hs] at ho; simp [Flt.isInf] at ho
  · rintro (⟨t, hv, rfl, ht⟩ | hi)
    · exact (C113_nearest h o t hv).1 ht
    · obtain ⟨neg, hn⟩ := simpleAtof_infText f s hi
      rw [hp, hn]
      rfl

/-- **C113.** What is NaN: the texts for it, and the set that the user gives, except for what is a number or an infinity. -/
theorem C113_nan (h : FloatColumn dt f mk) (o : ParserOptions) (s : Bytes) :
    parserOf (ieee binary32) (ieee binary64) o dt s = .ok (mk .nan) ↔ IsNanText s ∨ (InSet o.nans s ∧ ¬ IsNumText s ∧ ¬ IsInfText s) := by
  obtain ⟨hp, hg⟩ := floatColumn_parser h o s
  have hmk : ∀ v w, mk v = mk w → v = w := by
    cases h <;> (intro v w hvw; injection hvw)
  rw [hp]
  cases hs : simpleAtof f s with
  | none =>
    have h1 : ¬ IsNanText s := fun hn => by rw [simpleAtof_nan f s hn] at hs; cases hs
    have h2 : ¬ IsNumText s := by
      rintro ⟨t, hv, rfl⟩
      obtain ⟨a, d, _, hc, _⟩ := simpleAtof_number f t hv
      rw [hc] at hs; cases hs
    have h3 : ¬ IsInfText s := fun hi => by
      obtain ⟨neg, hn⟩ := simpleAtof_infText f s hi
      rw [hn] at hs; cases hs
    simp only
    rw [← inSet_iff]
    constructor
    · intro hok
      split at hok
      · rename_i hc; exact .inr ⟨hc, h2, h3⟩
      · cases hok
    · rintro (hc | ⟨hc, _⟩)
      · exact absurd hc h1
      · rw [if_pos hc]
  | some v =>
    simp only
    constructor
    · intro hok
      split at hok
      · cases hok
      · have hv : v = .nan := hmk _ _ (by injection hok)
        subst hv
        rcases simpleAtof_cases f s _ hs with ⟨t, hv, rfl⟩ | ⟨_, hc⟩ | ⟨_, hc⟩
        · obtain ⟨a, d, hd, hc, _⟩ := simpleAtof_number f t hv
          rw [hs] at hc
          obtain ⟨k1, k2⟩ := toFlt_spec f hg (decide (t.sign = .minus)) a d hd
          by_cases htl : TooLarge f ((a : ℚ) / d)
          · rw [k1 htl] at hc; cases hc
          · obtain ⟨m, e, hm, _⟩ := k2 htl
            rw [hm] at hc; cases hc
        · cases hc
        · exact .inl hc
    · rintro (hc | ⟨_, hc1, hc2⟩)
      · rw [simpleAtof_nan f s hc] at hs
        cases hs
        rfl
      · rcases simpleAtof_cases f s _ hs with hc | ⟨neg, hc⟩ | ⟨hc, _⟩
        · exact absurd hc hc1
        · subst hc
          rcases simpleAtof_inf f s neg hs with hc | hc
          · exact absurd hc hc1
          · exact absurd hc hc2
        · subst hc
          rfl

/-- **C113.** Everything else is refused, and nothing but that. -/
theorem C113_refused (h : FloatColumn dt f mk) (o : ParserOptions) (s : Bytes) :
    parserOf (ieee binary32) (ieee binary64) o dt s = .failed ↔ ¬ IsNumText s ∧ ¬ IsInfText s ∧ ¬ IsNanText s ∧ ¬ InSet o.nans s := by
  obtain ⟨hp, hg⟩ := floatColumn_parser h o s
  constructor
  · intro hf
    refine ⟨?_, ?_, ?_, ?_⟩
    · rintro ⟨t, hv, rfl⟩
      by_cases htl : TooLarge f t.value
      · rw [(C113_nearest h o t hv).1 htl] at hf; cases hf
      · obtain ⟨v, r, hok, -⟩ := (C113_nearest h o t hv).2 htl
        rw [hok] at hf; cases hf
    · intro hc
      rw [(C113_overflow h o s).2 (.inr hc)] at hf; cases hf
    · intro hc
      rw [(C113_nan h o s).2 (.inl hc)] at hf; cases hf
    · intro hc
      rw [hp] at hf
      cases hs : simpleAtof f s with
      | none => rw [hs] at hf; simp only at hf; rw [if_pos ((inSet_iff _ _).2 hc)] at hf; cases hf
      | some v => rw [hs] at hf; simp only at hf; split at hf <;> cases hf
  · rintro ⟨h1, h2, h3, h4⟩
    rw [hp]
    cases hs : simpleAtof f s with
    | none =>
      simp only
      rw [if_neg (fun hc => h4 ((inSet_iff _ _).1 hc))]
    | some v =>
      rcases simpleAtof_cases f s _ hs with hc | ⟨neg, hc⟩ | ⟨_, hc⟩
      · exact absurd hc h1
      · subst hc
        rcases simpleAtof_inf f s neg hs with hc | hc
        · exact absurd hc h1
        · exact absurd hc h2
      · exact absurd hc h3

/-- **C113.** Numbers of the type are read exactly. -/
theorem C113_representable (h : FloatColumn dt f mk) (o : ParserOptions) (t : NumText) (hv : t.Valid) (hq : IsFloat f t.value) :
    ∃ v, parserOf (ieee binary32) (ieee binary64) o dt t.bytes = .ok (mk v) ∧ Flt.value v = some t.value := by
  have hg := (floatColumn_parser h o t.bytes).2
  have hnt : ¬ TooLarge f t.value := by
    obtain ⟨m, e, hm, h1, h2, he⟩ := hq
    unfold TooLarge
    rw [he, abs_mul, abs_of_pos (show (0 : ℚ) < 2 ^ e by positivity), not_le]
    have hmq : |(m : ℚ)| ≤ 2 ^ f.p - 1 := by
      have : |m| + 1 ≤ 2 ^ f.p := hm
      have : |(m : ℚ)| + 1 ≤ 2 ^ f.p := by exact_mod_cast this
      linarith
    have hpos : (0 : ℚ) < 2 ^ f.emax := by positivity
    have hle : (2 : ℚ) ^ e ≤ 2 ^ f.emax := zpow_le_zpow_right₀ (by norm_num) h2
    calc |(m : ℚ)| * 2 ^ e ≤ |(m : ℚ)| * 2 ^ f.emax := mul_le_mul_of_nonneg_left hle (abs_nonneg _)
      _ < _ := mul_lt_mul_of_pos_right (by linarith) hpos
  obtain ⟨v, r, hok, hr, hn, -⟩ := (C113_nearest h o t hv).2 hnt
  exact ⟨v, hok, by rw [hr, hn.exact hq]⟩

/-- **C113.** The order of numbers is kept, and texts for the same number are read as the same one. -/
theorem C113_order (h : FloatColumn dt f mk) (o : ParserOptions) (t t' : NumText) (hv : t.Valid) (hv' : t'.Valid) (hle : t.value ≤ t'.value)
    (v v' : Flt) (r r' : ℚ) (hr : parserOf (ieee binary32) (ieee binary64) o dt t.bytes = .ok (mk v))
    (hr' : parserOf (ieee binary32) (ieee binary64) o dt t'.bytes = .ok (mk v')) (hvr : Flt.value v = some r) (hvr' : Flt.value v' = some r') :
    r ≤ r' ∧ (t.value = t'.value → r = r') := by
  have hg := (floatColumn_parser h o t.bytes).2
  have hmk : ∀ v w, mk v = mk w → v = w := by
    cases h <;> (intro v w hvw; injection hvw)
  have key : ∀ (t : NumText) (v : Flt) (r : ℚ), t.Valid → parserOf (ieee binary32) (ieee binary64) o dt t.bytes = .ok (mk v) →
      Flt.value v = some r → Nearest f t.value r := by
    intro t v r hv hr hvr
    by_cases htl : TooLarge f t.value
    · rw [(C113_nearest h o t hv).1 htl] at hr; cases hr
    · obtain ⟨w, q, hok, hq, hn, -⟩ := (C113_nearest h o t hv).2 htl
      rw [hr] at hok
      have : v = w := hmk _ _ (by injection hok)
      subst this
      rw [hvr] at hq
      injection hq with hq
      rw [hq]
      exact hn
  have n1 := key t v r hv hr hvr
  have n2 := key t' v' r' hv' hr' hvr'
  exact ⟨n1.mono hg.p n2 hle, fun he => (he ▸ n1).unique hg.p n2⟩

/-- **C113.** When the type of a column is inferred, its fields are integers if they can be, else numbers if they are such and not too large or texts for NaN, else texts. -/
theorem C113_inferred (s : Bytes) (dt : DataType) :
    inferDataType (ieee binary64) s = dt ↔
      TextKind (fun s => (∃ t : NumText, t.Valid ∧ t.bytes = s ∧ ¬ TooLarge ieeeDouble t.value) ∨ IsNanText s) s dt := by
  have hfin : ∀ s : Bytes, (∃ v, (ieee binary64).atof s = some v ∧ (ieee binary64).isInf v = false) ↔
      ((∃ t : NumText, t.Valid ∧ t.bytes = s ∧ ¬ TooLarge ieeeDouble t.value) ∨ IsNanText s) := by
    intro s
    constructor
    · rintro ⟨v, h1, h2⟩
      have h1 : simpleAtof ieeeDouble s = some v := h1
      have h2 : Flt.isInf v = false := h2
      rcases simpleAtof_cases _ s _ h1 with ⟨t, hv, rfl⟩ | ⟨neg, hc⟩ | ⟨_, hc⟩
      · left
        refine ⟨t, hv, rfl, fun htl => ?_⟩
        have ho := (C113_nearest .double {} t hv).1 htl
        rw [(floatColumn_parser .double {} t.bytes).1, h1] at ho
        simp [h2] at ho
      · subst hc; cases h2
      · exact .inr hc
    · rintro (⟨t, hv, rfl, htl⟩ | hn)
      · obtain ⟨a, d, hd, hs, hval⟩ := simpleAtof_number ieeeDouble t hv
        obtain ⟨m, e, hm, _⟩ := (toFlt_spec ieeeDouble double_good (decide (t.sign = .minus)) a d hd).2 (by rwa [hval, tooLarge_sign] at htl)
        exact ⟨_, hs, by rw [hm]; rfl⟩
      · exact ⟨.nan, simpleAtof_nan _ s hn, rfl⟩
  rw [C37_exact]
  have : (fun s => ∃ v, (ieee binary64).atof s = some v ∧ (ieee binary64).isInf v = false) =
      (fun s => (∃ t : NumText, t.Valid ∧ t.bytes = s ∧ ¬ TooLarge ieeeDouble t.value) ∨ IsNanText s) :=
    funext fun s => propext (hfin s)
  rw [this]

/-! ## Cases -/

/-- ` -1.25e+2` -/
def sampleDecimal : NumText := ⟨[32], .minus, none, [49], some [50, 53], some (101, .plus, [50]), []⟩

/-- `0x1.8p-1` -/
def sampleHex : NumText := ⟨[], .none, some 120, [49], some [56], some (112, .minus, [49]), []⟩

theorem sampleDecimal_valid : sampleDecimal.Valid ∧ sampleDecimal.value = -125 := by
  have hv : sampleDecimal.value = -125 := by
    have h1 : digitSum 10 [49, 50, 53] = 125 := by decide
    have h3 : sampleDecimal.exponent = 2 := by decide
    unfold NumText.value
    rw [h3]
    simp only [sampleDecimal, Option.getD_some, List.cons_append, List.nil_append, h1, Option.isSome_none, Bool.false_eq_true, if_false, if_true]
    norm_num
  refine ⟨⟨by simp [White, sampleDecimal], by simp [White, sampleDecimal], by simp [sampleDecimal], ?_, ?_, by simp [sampleDecimal], ?_, ?_⟩, hv⟩
  · simp [sampleDecimal, IsDigitOf]
  · simp [sampleDecimal, IsDigitOf]
  · rintro x hx; cases hx; simp [sampleDecimal]
  · rintro x hx; cases hx; simp [IsDigitOf]

example : sampleDecimal.bytes = " -1.25e+2".toUTF8.toList ∧ IsFloat ieeeSingle sampleDecimal.value :=
  ⟨by decide +kernel, -125, 0, by norm_num [ieeeSingle], by decide, by decide, by rw [sampleDecimal_valid.2]; norm_num⟩

example : sampleHex.Valid ∧ sampleHex.bytes = "0x1.8p-1".toUTF8.toList ∧ sampleHex.value = 3 / 4 := by
  refine ⟨⟨by simp [White, sampleHex], by simp [White, sampleHex], by simp [sampleHex], ?_, ?_, by simp [sampleHex], ?_, ?_⟩,
    by decide +kernel, ?_⟩
  · simp [sampleHex, IsDigitOf]
  · simp [sampleHex, IsDigitOf]
  · rintro x hx; cases hx; simp [sampleHex]
  · rintro x hx; cases hx; simp [IsDigitOf]
  · have h1 : digitSum 16 [49, 56] = 24 := by decide
    have h3 : sampleHex.exponent = -1 := by decide
    unfold NumText.value
    rw [h3, if_neg (by decide : ¬ sampleHex.sign = .minus)]
    simp only [sampleHex, Option.getD_some, List.cons_append, List.nil_append, h1, Option.isSome_some, if_true]
    norm_num

-- A tenth, in both types; one third of the way between two numbers; ties; the smallest and the greatest numbers, and what is beyond.
example : simpleAtof binary64 "0.1".toUTF8.toList = some (.num false 7205759403792794 (-56)) ∧
    simpleAtof binary32 "0.1".toUTF8.toList = some (.num false 13421773 (-27)) ∧
    simpleAtof binary32 "16777217".toUTF8.toList = some (.num false 8388608 1) ∧
    simpleAtof binary32 "16777219".toUTF8.toList = some (.num false 8388610 1) ∧
    simpleAtof binary32 "-1e-46".toUTF8.toList = some (.num true 0 (-149)) ∧
    simpleAtof binary32 "1e-45".toUTF8.toList = some (.num false 1 (-149)) ∧
    simpleAtof binary32 "3.4028235e38".toUTF8.toList = some (.num false 16777215 104) ∧
    simpleAtof binary32 "3.4028236e38".toUTF8.toList = some (.inf false) ∧
    simpleAtof binary64 "1e400".toUTF8.toList = some (.inf false) ∧
    simpleAtof binary64 ".5".toUTF8.toList = some (.num false 4503599627370496 (-53)) ∧
    simpleAtof binary64 "5.".toUTF8.toList = some (.num false 5629499534213120 (-50)) ∧
    simpleAtof binary64 ".".toUTF8.toList = none ∧ simpleAtof binary64 "1e".toUTF8.toList = none ∧ simpleAtof binary64 "+-1".toUTF8.toList = none ∧
    simpleAtof binary64 "1,5".toUTF8.toList = none ∧ simpleAtof binary64 "0x".toUTF8.toList = none ∧
    simpleAtof binary64 "-NaN(ab_1)".toUTF8.toList = some .nan ∧ simpleAtof binary64 "Infinity".toUTF8.toList = some (.inf false) := by
  decide +kernel

example : TooLarge ieeeSingle (10 ^ 39) ∧ ¬ TooLarge ieeeDouble (10 ^ 39) := by
  constructor
  · unfold TooLarge; rw [abs_of_pos (by norm_num)]; norm_num [ieeeSingle]
  · unfold TooLarge
    rw [abs_of_pos (by norm_num), not_le]
    have h : (2 : ℚ) ^ (100 : ℤ) ≤ 2 ^ ieeeDouble.emax := zpow_le_zpow_right₀ (by norm_num) (by decide)
    have h2 : (10 : ℚ) ^ 39 < (2 ^ 53 - 1 / 2) * 2 ^ (100 : ℤ) := by norm_num
    exact lt_of_lt_of_le h2 (mul_le_mul_of_nonneg_left h (by norm_num))

example : IsNanText "nan".toUTF8.toList ∧ IsInfText " -Inf".toUTF8.toList :=
  ⟨⟨[], .none, 110, 97, 110, none, [], by simp [White], by simp [White], .inl rfl, .inl rfl, .inl rfl, by simp, by decide +kernel⟩,
    [32], .minus, [73, 110, 102], [], by simp [White], by simp [White], .inl (by simp), by decide +kernel⟩

example : InSet [[78, 65]] [32, 78, 65] ∧ parserOf (ieee binary32) (ieee binary64) { nans := [[78, 65]] } .float32 [32, 78, 65] = .ok (.f32 .nan) :=
  ⟨⟨[32], [78, 65], [], by simp [White], by simp [White], rfl, by simp, by simp [White], by simp [White]⟩, rfl⟩

end Mlio
