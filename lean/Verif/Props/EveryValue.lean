import Verif.Props.CsvNumbers
import Verif.Props.ParserOptions

/-! # C118: every value of a column's type can be written -/

namespace Mlio
open Spec

theorem digit_of (hex : Bool) (k : Nat) (hk : k < if hex then 16 else 10) :
    ∃ c : UInt8, IsDigitOf hex c ∧ ∀ base cs, digitSum base (c :: cs) = k * base ^ cs.length + digitSum base cs := by
  by_cases h10 : k < 10
  · have hc : (UInt8.ofNat (48 + k)).toNat = 48 + k := by simp; omega
    refine ⟨UInt8.ofNat (48 + k), ?_, fun base cs => ?_⟩
    · unfold IsDigitOf; rw [hc]; left; omega
    · simp only [digitSum, hc]
      rw [if_pos (by omega), Nat.add_sub_cancel_left]
  · cases hex with
    | false => simp at hk; omega
    | true =>
      simp at hk
      have hc : (UInt8.ofNat (87 + k)).toNat = 87 + k := by simp; omega
      refine ⟨UInt8.ofNat (87 + k), ?_, fun base cs => ?_⟩
      · unfold IsDigitOf; rw [hc]; right; exact ⟨rfl, by omega⟩
      · simp only [digitSum, hc]
        rw [if_neg (by omega), if_neg (by omega), Nat.add_sub_cancel_left]

theorem digitSum_snoc (base : Nat) (ds : Bytes) (c : UInt8) : digitSum base (ds ++ [c]) = digitSum base ds * base + digitSum base [c] := by
  induction ds with
  | nil => simp [digitSum]
  | cons d ds ih =>
    simp only [List.cons_append, digitSum, ih, List.length_append, List.length_cons, List.length_nil, pow_succ]
    ring

theorem exists_digits (hex : Bool) (n : Nat) :
    ∃ ds : Bytes, ds ≠ [] ∧ (∀ c ∈ ds, IsDigitOf hex c) ∧ digitSum (if hex then 16 else 10) ds = n := by
  have hb : 1 < (if hex then 16 else 10) := by cases hex <;> decide
  generalize hbase : (if hex then 16 else 10) = base at hb
  induction n using Nat.strongRecOn with
  | _ n ih =>
    obtain ⟨c, hc, hs⟩ := digit_of hex (n % base) (by rw [hbase]; exact Nat.mod_lt _ (by omega))
    have h1 : digitSum base [c] = n % base := by rw [hs]; simp [digitSum]
    by_cases hn : n < base
    · exact ⟨[c], by simp, by simpa using hc, by rw [h1, Nat.mod_eq_of_lt hn]⟩
    · obtain ⟨ds, _, h3, h4⟩ := ih (n / base) (Nat.div_lt_self (by omega) hb)
      refine ⟨ds ++ [c], by simp, ?_, ?_⟩
      · intro x hx
        rcases List.mem_append.1 hx with hx | hx
        · exact h3 x hx
        · simp at hx; subst hx; exact hc
      · rw [digitSum_snoc, h4, h1, Nat.div_add_mod']

theorem exists_digitsValue (n : Nat) : ∃ ds : List (Fin 10), ds ≠ [] ∧ digitsValue ds = n := by
  induction n using Nat.strongRecOn with
  | _ n ih =>
    by_cases hn : n < 10
    · exact ⟨[⟨n, hn⟩], by simp, by simp [digitsValue]⟩
    · obtain ⟨ds, _, h2⟩ := ih (n / 10) (by omega)
      refine ⟨ds ++ [⟨n % 10, by omega⟩], by simp, ?_⟩
      unfold digitsValue at h2 ⊢
      rw [List.foldl_append, h2]
      simp
      omega

/-- **C118** for integers: every integer that the type of the column can hold has a text that is read as this integer. -/
theorem C118_integers (F32 F64 : FloatLib) (o : ParserOptions) (dt : DataType) (signed : Bool) (bits : Nat) (ht : IntegerType dt signed bits) (v : Int)
    (hv : InRange signed bits v) : ∃ s, parserOf F32 F64 o dt s = .ok (.int v) := by
  obtain ⟨ds, h1, h2⟩ := exists_digitsValue v.natAbs
  refine ⟨(⟨[], if v < 0 then .minus else .none, ds, []⟩ : IntText).bytes, (C38_columns F32 F64 o dt signed bits ht _ v).2
    ⟨_, ⟨by simp [White], h1, by simp [White]⟩, rfl, ?_, hv, ?_⟩⟩
  · unfold IntText.value
    simp only [h2]
    by_cases h0 : v < 0
    · simp only [if_pos h0, if_true]; omega
    · rw [if_neg h0, if_neg (by decide)]; omega
  · intro hs
    subst hs
    have : ¬ v < 0 := by have := hv.1; omega
    simp [this]

/-- **C118** for floating-point numbers: every number of the format of the column has a text that is read as this number. -/
theorem C118_floats {dt : DataType} {f : FloatFormat} {mk : Flt → Value Flt Flt} (h : FloatColumn dt f mk) (o : ParserOptions) (q : ℚ) (hq : IsFloat f q) :
    ∃ s v, parserOf (ieee binary32) (ieee binary64) o dt s = .ok (mk v) ∧ Flt.value v = some q := by
  obtain ⟨m, e, h1, h2, h3, rfl⟩ := id hq
  obtain ⟨ds, d1, d2, d3⟩ := exists_digits true m.natAbs
  obtain ⟨es, e1, e2, e3⟩ := exists_digits false e.natAbs
  let t : NumText := ⟨[], if m < 0 then .minus else .none, some 120, ds, none, some (112, if e < 0 then .minus else .none, es), []⟩
  have hexp : t.exponent = e := by
    simp only [t, NumText.exponent, Option.elim_some]
    have e3 : digitSum 10 es = e.natAbs := by simpa using e3
    rw [e3]
    by_cases h0 : e < 0
    · simp only [if_pos h0, if_true]; omega
    · rw [if_neg h0, if_neg (by decide)]; omega
  have hval : t.value = m * 2 ^ e := by
    unfold NumText.value
    rw [hexp]
    have d3 : digitSum 16 ds = m.natAbs := by simpa using d3
    simp only [t, Option.isSome_some, if_true, Option.getD_none, List.append_nil, List.length_nil, pow_zero, div_one, d3]
    by_cases h0 : m < 0
    · have : ((m.natAbs : ℕ) : ℚ) = -(m : ℚ) := by
        have : ((m.natAbs : ℕ) : ℤ) = -m := by omega
        rw [← Int.cast_natCast, this, Int.cast_neg]
      simp [h0, this]
    · have : ((m.natAbs : ℕ) : ℚ) = (m : ℚ) := by
        have : ((m.natAbs : ℕ) : ℤ) = m := by omega
        rw [← Int.cast_natCast, this]
      simp [h0, this]
  have hv : t.Valid := by
    refine ⟨by simp [t, White], by simp [t, White], by simp [t], d2, by simp [t], by simpa [t] using d1, by simp [t], ?_⟩
    intro x hx
    simp only [t, Option.some.injEq] at hx
    subst hx
    exact ⟨e1, e2⟩
  obtain ⟨v, a, b⟩ := C113_representable h o t hv (by rw [hval]; exact hq)
  exact ⟨t.bytes, v, a, by rw [b, hval]⟩

/-- **C118** for texts: they are read as they are. -/
theorem C118_strings (F32 F64 : FloatLib) (o : ParserOptions) (s : Bytes) : parserOf F32 F64 o .string s = .ok (.str s) := rfl

/-- **C118 is violated** for half precision: in a column of this type no text is a number; every row is bad, whatever its fields. -/
theorem C118_half_violated (o : ParserOptions) (s : Bytes) (cfg : RowCfg) (cols : List (CsvCol (Value Flt Flt))) (zero : Value Flt Flt)
    (hc : csvColumn o .float16 zero ∈ cols) (t : Tok) (row : Bytes) :
    parserOf (ieee binary32) (ieee binary64) o .float16 s = .failed ∧ (decodeRow cfg cols t row).out ≠ .ok true := by
  refine ⟨rfl, fun h => ?_⟩
  obtain ⟨fs, _, hl, hw⟩ := (C30_accepts_iff cfg cols t row).1 h
  obtain ⟨i, hi, he⟩ := List.mem_iff_getElem.1 hc
  have hm : (cols[i], fs[i]'(by omega)) ∈ cols.zip fs := by
    rw [List.mem_iff_getElem]
    exact ⟨i, by simp; omega, by simp⟩
  have := hw _ hm
  rw [he] at this
  rcases this with h | ⟨h, _⟩
  · cases h
  · cases h

/-- The least integer of 8 bits, and the greatest negative number of single precision, `-2^-149`. -/
example : (∃ s, parserOf toyFloat toyFloat {} .int8 s = .ok (.int (-128))) ∧
    ∃ s v, parserOf (ieee binary32) (ieee binary64) {} .float32 s = .ok (.f32 v) ∧ Flt.value v = some (-1 * 2 ^ (-149 : ℤ)) :=
  ⟨C118_integers _ _ _ _ true 8 .int8 _ (by decide), C118_floats .single {} _ ⟨-1, -149, by decide, by decide, by decide, by norm_num⟩⟩

/-- A table with a column of half precision and one of integers: the row `1,2` is bad. -/
example : (decodeRow { tok := {}, limit := .truncate, warnBad := false, errorBad := false } [csvColumn {} .float16 (.int 0), csvColumn {} .int8 (.int 0)]
    { text := [] } [49, 44, 50]).out ≠ .ok true :=
  (C118_half_violated {} [49] _ _ (.int 0) (by simp) _ _).2

end Mlio
