import Verif.Spec.ToDict
import Verif.Proofs.CsvSchema

/-! # Lemmas on the dictionary of a column -/

namespace Mlio
open Spec

theorem filter_le_of_split (l : List Rat) (n : Nat) (x : Rat) (hx : l[n]? = some x) (h1 : ∀ y ∈ l.take n, y ≤ x) (h2 : ∀ y ∈ l.drop (n + 1), x ≤ y) :
    (l.filter (fun y => decide (y < x))).length ≤ n ∧ (l.filter (fun y => decide (x < y))).length ≤ l.length - (n + 1) := by
  have hlt : n < l.length := (List.getElem?_eq_some_iff.mp hx).1
  have hsplit : l = l.take n ++ x :: l.drop (n + 1) := by
    have : l[n] = x := by
      rw [List.getElem?_eq_getElem hlt] at hx; simpa using hx
    rw [← this, ← List.drop_eq_getElem_cons hlt, List.take_append_drop]
  have e1 : (l.drop (n + 1)).filter (fun y => decide (y < x)) = [] := by
    rw [List.filter_eq_nil_iff]
    intro y hy
    simpa using Rat.not_lt.mpr (h2 y hy)
  have e2 : (l.take n).filter (fun y => decide (x < y)) = [] := by
    rw [List.filter_eq_nil_iff]
    intro y hy
    simpa using Rat.not_lt.mpr (h1 y hy)
  have hxx : ¬ x < x := Rat.lt_irrefl
  constructor
  · rw [hsplit, List.filter_append, List.filter_cons]
    simp only [hxx, decide_false, e1, List.append_nil]
    have := List.length_filter_le (fun y => decide (y < x)) (l.take n)
    simp only [List.length_take] at this
    simp
    omega
  · rw [hsplit, List.filter_append, List.filter_cons]
    simp only [hxx, decide_false, e2, List.nil_append]
    have := List.length_filter_le (fun y => decide (x < y)) (l.drop (n + 1))
    simp only [List.length_drop] at this
    simp
    omega

/-- There is one median. -/
theorem median_unique {l : List Rat} {m m' : Option Rat} (h : IsMedian l m) (h' : IsMedian l m') : m = m' := by
  have key : ∀ a b : Rat, IsMedian l (some a) → IsMedian l (some b) → ¬ a < b := by
    intro a b ha hb hab
    have h1 := ha.2.2
    have h2 := hb.2.1
    have h3 : l.length = (l.filter (fun x => decide (a < x))).length + (l.filter (fun x => !decide (a < x))).length := by
      have := List.length_eq_countP_add_countP (fun x => decide (a < x)) (l := l)
      rw [List.countP_eq_length_filter, List.countP_eq_length_filter] at this
      simpa using this
    have h4 : (l.filter (fun x => !decide (a < x))).length ≤ (l.filter (fun x => decide (x < b))).length := by
      rw [← List.countP_eq_length_filter, ← List.countP_eq_length_filter]
      refine List.countP_mono_left ?_
      intro x _ hx
      simp only [Bool.not_eq_true', decide_eq_false_iff_not, Rat.not_lt] at hx
      simpa using Rat.not_le.mp (fun h => Rat.not_le.mpr hab (Rat.le_trans h hx))
    omega
  cases m with
  | none =>
    cases m' with
    | none => rfl
    | some b => have : b ∈ l := h'.1; rw [show l = [] from h] at this; simp at this
  | some a =>
    cases m' with
    | none => have : a ∈ l := h.1; rw [show l = [] from h'] at this; simp at this
    | some b =>
      have h1 := key a b h h'
      have h2 := key b a h' h
      rw [Rat.not_lt] at h1 h2
      rw [Rat.le_antisymm h2 h1]

theorem median_perm {l l' : List Rat} (hp : l'.Perm l) {m : Option Rat} (h : IsMedian l' m) : IsMedian l m := by
  cases m with
  | none => have : l' = [] := h; subst this; exact hp.symm.eq_nil
  | some m =>
    refine ⟨hp.mem_iff.mp h.1, ?_, ?_⟩
    · rw [← (hp.filter _).length_eq, ← hp.length_eq]; exact h.2.1
    · rw [← (hp.filter _).length_eq, ← hp.length_eq]; exact h.2.2

theorem medianApprox_spec {nth : List Rat → Nat → List Rat} (hn : NthOk nth) (s : ColStats) :
    IsMedian s.core.sample (medianApprox nth s).1 ∧ (medianApprox nth s).2.core.sample.Perm s.core.sample ∧
    (medianApprox nth s).2 = { s with core := { s.core with sample := (medianApprox nth s).2.core.sample } } := by
  unfold medianApprox
  cases hs : s.core.sample.isEmpty with
  | true =>
    simp only [if_true]
    exact ⟨(show s.core.sample = [] by simpa using hs), List.Perm.refl _, trivial⟩
  | false =>
    simp only [Bool.false_eq_true, if_false]
    have hne : s.core.sample ≠ [] := by simpa using hs
    have hpos := List.length_pos_iff.mpr hne
    have hlt : s.core.sample.length / 2 < s.core.sample.length := by omega
    obtain ⟨hp, hx⟩ := hn s.core.sample _ hlt
    have hlen := hp.length_eq
    have hget : ∃ x, (nth s.core.sample (s.core.sample.length / 2))[s.core.sample.length / 2]? = some x :=
      ⟨_, List.getElem?_eq_getElem (by omega)⟩
    obtain ⟨x, hx'⟩ := hget
    obtain ⟨h1, h2⟩ := hx x hx'
    obtain ⟨h3, h4⟩ := filter_le_of_split _ _ _ hx' h1 h2
    refine ⟨?_, hp, trivial⟩
    rw [hx']
    refine median_perm hp ⟨List.mem_of_getElem? hx', by omega, by omega⟩

theorem ofNat_digit (k : Nat) (hk : k < 10) : (UInt8.ofNat (48 + k)).toNat = 48 + k := by
  rw [UInt8.toNat_ofNat']; omega

theorem lastDigits_spec (k n : Nat) : (lastDigits k n).length = k ∧ (∀ d ∈ lastDigits k n, IsDigit d) ∧ numeral (lastDigits k n) = n % 10 ^ k := by
  induction k generalizing n with
  | zero => exact ⟨rfl, by simp [lastDigits], by simp [lastDigits, numeral, Nat.mod_one]⟩
  | succ k ih =>
    obtain ⟨h1, h2, h3⟩ := ih (n / 10)
    refine ⟨by simp [lastDigits, h1], ?_, ?_⟩
    · intro d hd
      simp only [lastDigits, List.mem_append, List.mem_cons, List.not_mem_nil, or_false] at hd
      rcases hd with hd | rfl
      · exact h2 d hd
      · unfold IsDigit; rw [ofNat_digit _ (Nat.mod_lt _ (by decide))]; omega
    · have : numeral (lastDigits (k + 1) n) = 10 * numeral (lastDigits k (n / 10)) + n % 10 := by
        simp only [numeral, lastDigits, List.foldl_append, List.foldl_cons, List.foldl_nil]
        rw [ofNat_digit _ (Nat.mod_lt _ (by decide))]; omega
      rw [this, h3, Nat.pow_succ, Nat.mul_comm (10 ^ k) 10, Nat.mod_mul]
      omega

theorem decimalFuel_spec : ∀ (f n : Nat), n < f → IsNumeral (decimalFuel f n) n
  | 0, n, h => by omega
  | f + 1, n, h => by
    unfold decimalFuel
    by_cases hn : n < 10
    · rw [if_pos hn]
      refine ⟨by simp, ?_, ?_, ?_⟩
      · intro d hd
        simp only [List.mem_cons, List.not_mem_nil, or_false] at hd
        subst hd
        unfold IsDigit; rw [ofNat_digit _ hn]; omega
      · intro hh; simpa using hh
      · simp only [numeral, List.foldl_cons, List.foldl_nil]
        rw [ofNat_digit _ hn]; omega
    · rw [if_neg hn]
      obtain ⟨h1, h2, h3, h4⟩ := decimalFuel_spec f (n / 10) (by omega)
      refine ⟨by simp, ?_, ?_, ?_⟩
      · intro d hd
        simp only [List.mem_append, List.mem_cons, List.not_mem_nil, or_false] at hd
        rcases hd with hd | rfl
        · exact h2 d hd
        · unfold IsDigit; rw [ofNat_digit _ (Nat.mod_lt _ (by decide))]; omega
      · intro hh
        rw [List.head?_append] at hh
        cases hd : decimalFuel f (n / 10) with
        | nil => exact absurd hd h1
        | cons c cs =>
          rw [hd] at hh
          simp only [List.head?_cons, Option.some_or, Option.some.injEq] at hh
          have := h3 (by rw [hd, hh]; rfl)
          rw [this] at h4
          simp [numeral] at h4
          omega
      · have : numeral (decimalFuel f (n / 10) ++ [UInt8.ofNat (48 + n % 10)]) = 10 * numeral (decimalFuel f (n / 10)) + n % 10 := by
          simp only [numeral, List.foldl_append, List.foldl_cons, List.foldl_nil]
          rw [ofNat_digit _ (Nat.mod_lt _ (by decide))]; omega
        rw [this, h4]
        omega

theorem decimal_spec (n : Nat) : IsNumeral (decimal n) n := decimalFuel_spec (n + 1) n (by omega)

/-- Rounding to the nearest. -/
theorem roundEven_near (a d : Nat) (hd : 0 < d) : 2 * (roundEven a d * d) ≤ 2 * a + d ∧ 2 * a ≤ 2 * (roundEven a d * d) + d := by
  have h1 : a = d * (a / d) + a % d := (Nat.div_add_mod a d).symm
  have h2 : a / d * d = d * (a / d) := Nat.mul_comm _ _
  have h3 := Nat.mod_lt a hd
  unfold roundEven
  (repeat' split) <;> (try rw [Nat.add_mul]) <;> omega

theorem rat_mul_den (q : Rat) : q * (q.den : Rat) = (q.num : Rat) := by
  have hd : (q.den : Rat) ≠ 0 := fun h => q.den_nz (Rat.natCast_eq_zero_iff.mp h)
  conv => lhs; lhs; rw [← Rat.mkRat_self q, Rat.mkRat_eq_div]
  exact Rat.div_mul_cancel hd

theorem rat_abs_mul_den (q : Rat) : q.abs * (q.den : Rat) = (q.num.natAbs : Rat) := by
  have h := rat_mul_den q
  unfold Rat.abs
  split
  · rename_i h0
    have := Rat.num_nonneg.mpr h0
    have e : (q.num.natAbs : Int) = q.num := by omega
    rw [h, ← Rat.intCast_natCast, e]
  · rename_i h0
    have : ¬ 0 ≤ q.num := fun h => h0 (Rat.num_nonneg.mp h)
    have e : (q.num.natAbs : Int) = -q.num := by omega
    rw [Rat.neg_mul, h, ← Rat.intCast_natCast, e, Rat.intCast_neg]

/-- Six decimals are as near as they can be. -/
theorem fixed6_spec (q : Rat) : IsFixed6 (fixed6 (some q)) q := by
  let N := roundEven (q.num.natAbs * 10 ^ 6) q.den
  obtain ⟨h1, h2, h3⟩ := lastDigits_spec 6 (N % 10 ^ 6)
  refine ⟨decimal (N / 10 ^ 6), lastDigits 6 (N % 10 ^ 6), N / 10 ^ 6, rfl, decimal_spec _, h1, h2, ?_⟩
  rw [h3, Nat.mod_mod]
  have hd : (0 : Rat) < q.den := Rat.natCast_pos.mpr q.den_pos
  have hq := rat_abs_mul_den q
  obtain ⟨hn1, hn2⟩ := roundEven_near (q.num.natAbs * 10 ^ 6) q.den q.den_pos
  have hN : N = 10 ^ 6 * (N / 10 ^ 6) + N % 10 ^ 6 := (Nat.div_add_mod N (10 ^ 6)).symm
  have hv : ((N / 10 ^ 6 : Nat) : Rat) + ((N % 10 ^ 6 : Nat) : Rat) / 10 ^ 6 = (N : Rat) / 10 ^ 6 := by
    have : (N : Rat) = 10 ^ 6 * ((N / 10 ^ 6 : Nat) : Rat) + ((N % 10 ^ 6 : Nat) : Rat) := by
      conv => lhs; rw [hN]
      rw [Rat.natCast_add, Rat.natCast_mul]; rfl
    rw [this]
    grind
  have c1 : (2 : Rat) * ((N : Rat) * q.den) ≤ 2 * ((q.num.natAbs : Rat) * 10 ^ 6) + q.den := by
    have := Rat.natCast_le_natCast.mpr hn1
    rw [Rat.natCast_mul, Rat.natCast_mul, Rat.natCast_add, Rat.natCast_mul, Rat.natCast_mul] at this
    exact this
  have c2 : (2 : Rat) * ((q.num.natAbs : Rat) * 10 ^ 6) ≤ 2 * ((N : Rat) * q.den) + q.den := by
    have := Rat.natCast_le_natCast.mpr hn2
    rw [Rat.natCast_mul, Rat.natCast_mul, Rat.natCast_add, Rat.natCast_mul, Rat.natCast_mul] at this
    exact this
  simp only
  rw [hv]
  rw [← hq] at c1 c2
  constructor
  · apply Rat.not_lt.mp
    intro hlt
    have := Rat.mul_lt_mul_of_pos_right hlt hd
    grind
  · apply Rat.not_lt.mp
    intro hlt
    have := Rat.mul_lt_mul_of_pos_right hlt hd
    grind

end Mlio
