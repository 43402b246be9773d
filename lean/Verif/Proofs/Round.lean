import Verif.Spec.Decimal
import Mathlib.Tactic.Linarith
import Mathlib.Tactic.NormNum
import Mathlib.Tactic.Positivity
import Mathlib.Tactic.FieldSimp
import Mathlib.Tactic.Ring
import Mathlib.Tactic.Push

/-! # Rounding to the nearest number of a format -/

namespace Mlio

open Spec

theorem roundEven_half (a d : Nat) (hd : 0 < d) :
    |(a : ℚ) / d - roundEven a d| ≤ 1 / 2 ∧ (|(a : ℚ) / d - roundEven a d| = 1 / 2 → roundEven a d % 2 = 0) := by
  have hd' : (0 : ℚ) < d := by exact_mod_cast hd
  have hq : (a : ℚ) / d = (a / d : Nat) + ((a % d : Nat) : ℚ) / d := by
    have h := Nat.div_add_mod a d
    have h' : (a : ℚ) = d * (a / d : Nat) + (a % d : Nat) := by exact_mod_cast h.symm
    rw [eq_comm, ← sub_eq_zero]
    field_simp
    linarith
  have hlt : a % d < d := Nat.mod_lt _ hd
  generalize hk : a / d = k at *
  generalize hr : a % d = r at *
  have hr0 : (0 : ℚ) ≤ (r : ℚ) / d := by positivity
  unfold roundEven
  rw [hk, hr, hq]
  by_cases h1 : 2 * r < d
  · rw [if_pos h1]
    have h2 : (r : ℚ) / d < 1 / 2 := by
      rw [div_lt_div_iff₀ hd' (by norm_num)]
      have : (2 * r : ℚ) < d := by exact_mod_cast h1
      linarith
    have h3 : |(k : ℚ) + (r : ℚ) / d - k| = (r : ℚ) / d := by
      rw [add_sub_cancel_left, abs_of_nonneg hr0]
    rw [h3]
    exact ⟨le_of_lt h2, fun h => absurd h (ne_of_lt h2)⟩
  · rw [if_neg h1]
    by_cases h4 : d < 2 * r
    · rw [if_pos h4]
      have h2 : 1 / 2 < (r : ℚ) / d := by
        rw [div_lt_div_iff₀ (by norm_num) hd']
        have : (d : ℚ) < 2 * r := by exact_mod_cast h4
        linarith
      have h5 : (r : ℚ) / d < 1 := by
        rw [div_lt_one hd']
        exact_mod_cast hlt
      have h3 : |(k : ℚ) + (r : ℚ) / d - ((k + 1 : Nat) : ℚ)| = 1 - (r : ℚ) / d := by
        push_cast
        rw [abs_of_nonpos (by linarith)]
        ring
      rw [h3]
      exact ⟨by linarith, fun h => by linarith⟩
    · rw [if_neg h4]
      have he : (r : ℚ) / d = 1 / 2 := by
        rw [div_eq_div_iff (ne_of_gt hd') (by norm_num)]
        have : 2 * r = d := by omega
        have : (2 * r : ℚ) = d := by exact_mod_cast this
        linarith
      rw [he]
      split
      · rename_i h6
        rw [add_sub_cancel_left]
        exact ⟨by norm_num, fun _ => h6⟩
      · rename_i h6
        push_cast
        have h3 : |(k : ℚ) + 1 / 2 - (k + 1)| = 1 / 2 := by
          rw [abs_of_nonpos (by linarith)]
          ring
        rw [h3]
        exact ⟨le_refl _, fun _ => by omega⟩

theorem two_zpow_nonneg (k : Int) (h : 0 ≤ k) : ((2 : ℚ) ^ k) = ((2 ^ k.toNat : Nat) : ℚ) := by
  obtain ⟨n, rfl⟩ := Int.eq_ofNat_of_zero_le h
  simp

theorem two_zpow_neg (k : Int) (h : ¬ 0 ≤ k) : ((2 : ℚ) ^ k) = (((2 ^ (-k).toNat : Nat) : ℚ))⁻¹ := by
  obtain ⟨n, hn⟩ := Int.eq_ofNat_of_zero_le (show 0 ≤ -k by omega)
  have : k = -(n : Int) := by omega
  subst this
  simp

theorem powLe_iff (a d : Nat) (hd : 0 < d) (k : Int) : powLe a d k = true ↔ (2 : ℚ) ^ k ≤ (a : ℚ) / d := by
  have hd' : (0 : ℚ) < d := by exact_mod_cast hd
  unfold powLe
  by_cases h : 0 ≤ k
  · rw [if_pos h, two_zpow_nonneg k h, le_div_iff₀ hd', decide_eq_true_eq, mul_comm]
    exact_mod_cast Iff.rfl
  · rw [if_neg h, two_zpow_neg k h, decide_eq_true_eq]
    have hp : (0 : ℚ) < ((2 ^ (-k).toNat : Nat) : ℚ) := by positivity
    rw [inv_eq_one_div, div_le_div_iff₀ hp hd', one_mul]
    exact_mod_cast Iff.rfl

theorem roundAt_near (a d : Nat) (hd : 0 < d) (e : Int) :
    |(a : ℚ) / d / 2 ^ e - roundAt a d e| ≤ 1 / 2 ∧ (|(a : ℚ) / d / 2 ^ e - roundAt a d e| = 1 / 2 → roundAt a d e % 2 = 0) := by
  unfold roundAt
  by_cases h : 0 ≤ e
  · rw [if_pos h]
    have := roundEven_half a (d * 2 ^ e.toNat) (by positivity)
    rw [two_zpow_nonneg e h, div_div]
    push_cast at this ⊢
    exact this
  · rw [if_neg h]
    have := roundEven_half (a * 2 ^ (-e).toNat) d hd
    rw [two_zpow_neg e h, div_inv_eq_mul, div_mul_eq_mul_div]
    push_cast at this ⊢
    exact this

theorem scaleOf_spec (a d : Nat) (ha : 0 < a) (hd : 0 < d) :
    (2 : ℚ) ^ scaleOf a d ≤ (a : ℚ) / d ∧ (a : ℚ) / d < 2 ^ (scaleOf a d + 1) := by
  have hd' : (0 : ℚ) < d := by exact_mod_cast hd
  have ha1 := Nat.log2_self_le (Nat.pos_iff_ne_zero.1 ha)
  have ha2 := Nat.lt_log2_self (n := a)
  have hd1 := Nat.log2_self_le (Nat.pos_iff_ne_zero.1 hd)
  have hd2 := Nat.lt_log2_self (n := d)
  have qa1 : (2 : ℚ) ^ (a.log2 : ℤ) ≤ a := by rw [zpow_natCast]; exact_mod_cast ha1
  have qa2 : (a : ℚ) < 2 ^ ((a.log2 : ℤ) + 1) := by
    rw [show ((a.log2 : ℤ) + 1) = ((a.log2 + 1 : Nat) : ℤ) by push_cast; ring, zpow_natCast]; exact_mod_cast ha2
  have qd1 : (2 : ℚ) ^ (d.log2 : ℤ) ≤ d := by rw [zpow_natCast]; exact_mod_cast hd1
  have qd2 : (d : ℚ) < 2 ^ ((d.log2 : ℤ) + 1) := by
    rw [show ((d.log2 : ℤ) + 1) = ((d.log2 + 1 : Nat) : ℤ) by push_cast; ring, zpow_natCast]; exact_mod_cast hd2
  -- bounds on the quotient
  have hup : (a : ℚ) / d < 2 ^ ((a.log2 : ℤ) - d.log2 + 1) := by
    rw [div_lt_iff₀ hd']
    calc (a : ℚ) < 2 ^ ((a.log2 : ℤ) + 1) := qa2
      _ = 2 ^ ((a.log2 : ℤ) - d.log2 + 1) * 2 ^ (d.log2 : ℤ) := by
        rw [← zpow_add₀ (by norm_num)]; congr 1; ring
      _ ≤ _ := by
        apply mul_le_mul_of_nonneg_left qd1; positivity
  have hlo : (2 : ℚ) ^ ((a.log2 : ℤ) - d.log2 - 1) ≤ (a : ℚ) / d := by
    rw [le_div_iff₀ hd']
    calc (2 : ℚ) ^ ((a.log2 : ℤ) - d.log2 - 1) * d ≤ 2 ^ ((a.log2 : ℤ) - d.log2 - 1) * 2 ^ ((d.log2 : ℤ) + 1) := by
          apply mul_le_mul_of_nonneg_left (le_of_lt qd2); positivity
      _ = 2 ^ (a.log2 : ℤ) := by rw [← zpow_add₀ (by norm_num)]; congr 1; ring
      _ ≤ _ := qa1
  unfold scaleOf
  by_cases h : powLe a d ((a.log2 : ℤ) - d.log2) = true
  · simp only [h, if_true]
    exact ⟨(powLe_iff a d hd _).1 h, hup⟩
  · simp only [h, if_false, Bool.false_eq_true]
    refine ⟨hlo, ?_⟩
    rw [powLe_iff a d hd] at h
    push Not at h
    rw [show ((a.log2 : ℤ) - d.log2 - 1 + 1) = (a.log2 : ℤ) - d.log2 by ring]
    exact h

/-- An integer with distance at most one half is nearest among integers. -/
theorem int_near (x : ℚ) (m y : ℤ) (h : |x - m| ≤ 1 / 2) : |x - m| ≤ |x - y| ∧ (y ≠ m → |x - m| = |x - y| → |x - m| = 1 / 2) := by
  by_cases hy : y = m
  · subst hy
    exact ⟨le_refl _, fun h => absurd rfl h⟩
  · have h1 : (1 : ℚ) ≤ |(m : ℚ) - y| := by
      have : 1 ≤ |m - y| := Int.one_le_abs (by omega)
      exact_mod_cast this
    have h2 : |(m : ℚ) - y| ≤ |x - m| + |x - y| := by
      have := abs_sub_le (m : ℚ) x y
      rw [abs_sub_comm (m : ℚ) x] at this
      exact this
    exact ⟨by linarith, fun _ h3 => by linarith⟩

theorem scaled_abs (q m : ℚ) (e : ℤ) : |q - m * 2 ^ e| = |q / 2 ^ e - m| * 2 ^ e := by
  have h : (0 : ℚ) < 2 ^ e := by positivity
  rw [show q - m * 2 ^ e = (q / 2 ^ e - m) * 2 ^ e by field_simp, abs_mul, abs_of_pos h]

structure FloatFormat.Good (f : FloatFormat) : Prop where
  p : 2 ≤ f.p
  e : f.emin ≤ f.emax

/-- The rounded number is nearer than every other one. -/
theorem nearest_scaled (f : FloatFormat) (q : ℚ) (e : ℤ) (m : ℕ) (hm : |q / 2 ^ e - m| ≤ 1 / 2)
    (hlow : e = f.emin ∨ (2 : ℚ) ^ (f.p - 1) ≤ q / 2 ^ e) (he : f.emin ≤ e) (hp : 2 ≤ f.p) (r' : ℚ) (hr : IsFloat f r') :
    |q - m * 2 ^ e| ≤ |q - r'| ∧ (r' ≠ m * 2 ^ e → |q - m * 2 ^ e| = |q - r'| → |q / 2 ^ e - m| = 1 / 2) := by
  obtain ⟨m', e', hm', h1, h2, rfl⟩ := hr
  have hpos : (0 : ℚ) < 2 ^ e := by positivity
  have hr : (m' : ℚ) * 2 ^ e' = (m' * 2 ^ (e' - e)) * 2 ^ e := by
    rw [mul_assoc, ← zpow_add₀ (by norm_num)]; congr 2; ring
  rw [hr, scaled_abs, scaled_abs]
  generalize hx : q / 2 ^ e = x at *
  by_cases hee : e ≤ e'
  · have hint : ((m' : ℚ) * 2 ^ (e' - e)) = ((m' * 2 ^ (e' - e).toNat : ℤ) : ℚ) := by
      rw [two_zpow_nonneg _ (by omega)]; push_cast; rfl
    rw [hint]
    have h := int_near x m (m' * 2 ^ (e' - e).toNat) (by exact_mod_cast hm)
    refine ⟨mul_le_mul_of_nonneg_right (by exact_mod_cast h.1) (le_of_lt hpos), ?_⟩
    intro hne heq
    have heq' := mul_right_cancel₀ (ne_of_gt hpos) heq
    have := h.2 (fun hc => hne (by rw [hc]; rfl)) (by exact_mod_cast heq')
    exact_mod_cast this
  · have hlow : (2 : ℚ) ^ (f.p - 1) ≤ x := by
      rcases hlow with h | h
      · omega
      · exact h
    have hy : (m' : ℚ) * 2 ^ (e' - e) < 2 ^ (f.p - 1) := by
      have hz : (2 : ℚ) ^ (e' - e) ≤ 1 / 2 := by
        have : (2 : ℚ) ^ (e' - e) ≤ 2 ^ (-1 : ℤ) := zpow_le_zpow_right₀ (by norm_num) (by omega)
        rw [show ((2 : ℚ) ^ (-1 : ℤ)) = 1 / 2 by norm_num] at this
        exact this
      have hz0 : (0 : ℚ) < 2 ^ (e' - e) := by positivity
      have hmq : (m' : ℚ) < 2 ^ f.p := by
        have : m' < 2 ^ f.p := lt_of_le_of_lt (le_abs_self _) hm'
        exact_mod_cast this
      have hpp : (2 : ℚ) ^ f.p = 2 * 2 ^ (f.p - 1) := by
        rw [← pow_succ']; congr 1; omega
      calc (m' : ℚ) * 2 ^ (e' - e) < 2 ^ f.p * 2 ^ (e' - e) := mul_lt_mul_of_pos_right hmq hz0
        _ ≤ 2 ^ f.p * (1 / 2) := mul_le_mul_of_nonneg_left hz (by positivity)
        _ = _ := by rw [hpp]; ring
    have h := (int_near x m (2 ^ (f.p - 1)) (by exact_mod_cast hm)).1
    have h' : |x - m| ≤ x - 2 ^ (f.p - 1) := by
      push_cast at h
      rw [abs_of_nonneg (show (0 : ℚ) ≤ x - 2 ^ (f.p - 1) by linarith)] at h
      exact h
    have hlt : |x - m| < |x - m' * 2 ^ (e' - e)| := by
      rw [abs_of_pos (show (0 : ℚ) < x - m' * 2 ^ (e' - e) by linarith)]
      linarith
    have := mul_lt_mul_of_pos_right hlt hpos
    exact ⟨le_of_lt this, fun _ heq => absurd heq (ne_of_lt this)⟩

theorem toFlt_spec (f : FloatFormat) (hf : f.Good) (neg : Bool) (a d : Nat) (hd : 0 < d) :
    (TooLarge f ((a : ℚ) / d) → toFlt f neg a d = .inf neg) ∧
    (¬ TooLarge f ((a : ℚ) / d) → ∃ m e, toFlt f neg a d = .num neg m e ∧ Nearest f ((a : ℚ) / d) (m * 2 ^ e)) := by
  have hp := hf.p
  have hpp : (2 : ℚ) ^ f.p = 2 * 2 ^ (f.p - 1) := by rw [← pow_succ']; congr 1; omega
  have hppos : (2 : ℚ) ≤ 2 ^ (f.p - 1) := by
    calc (2 : ℚ) = 2 ^ 1 := by norm_num
      _ ≤ _ := pow_le_pow_right₀ (by norm_num) (by omega)
  by_cases ha : a = 0
  · subst ha
    have hmax : (0 : ℚ) < 2 ^ f.emax := by positivity
    constructor
    · intro h
      unfold TooLarge at h
      simp only [Nat.cast_zero, zero_div, abs_zero] at h
      have : (0 : ℚ) < (2 ^ f.p - 1 / 2) * 2 ^ f.emax := mul_pos (by linarith) hmax
      linarith
    · intro _
      refine ⟨0, f.emin, by simp [toFlt], ?_⟩
      simp only [Nat.cast_zero, zero_div, zero_mul]
      refine ⟨⟨0, f.emin, by simp, le_refl _, hf.e, by simp⟩, fun r' _ => by simp, fun r' _ hne heq => ?_⟩
      rw [sub_zero, abs_zero, zero_sub, abs_neg, eq_comm, abs_eq_zero] at heq
      exact absurd heq hne
  · have ha' : 0 < a := Nat.pos_of_ne_zero ha
    obtain ⟨hs1, hs2⟩ := scaleOf_spec a d ha' hd
    have hq0 : (0 : ℚ) ≤ (a : ℚ) / d := by positivity
    have hr := fun e => roundAt_near a d hd e
    unfold toFlt TooLarge
    rw [if_neg ha, abs_of_nonneg hq0]
    generalize (a : ℚ) / d = q at *
    generalize scaleOf a d = s at *
    simp only
    generalize he : max f.emin (s - (f.p - 1)) = e at *
    obtain ⟨hr1, hr2⟩ := hr e
    generalize roundAt a d e = m at *
    have hpos : (0 : ℚ) < 2 ^ e := by positivity
    have hemin : f.emin ≤ e := by omega
    have hx2 : q / 2 ^ e < 2 ^ f.p := by
      rw [div_lt_iff₀ hpos, ← zpow_natCast, ← zpow_add₀ (by norm_num)]
      exact lt_of_lt_of_le hs2 (zpow_le_zpow_right₀ (by norm_num) (by omega))
    have hlow : e = f.emin ∨ (2 : ℚ) ^ (f.p - 1) ≤ q / 2 ^ e := by
      by_cases h : e = f.emin
      · exact .inl h
      · right
        rw [le_div_iff₀ hpos, ← zpow_natCast, ← zpow_add₀ (by norm_num)]
        exact le_trans (zpow_le_zpow_right₀ (by norm_num) (by omega)) hs1
    have hnear := nearest_scaled f q e m hr1 hlow hemin hp
    have hqx : q = q / 2 ^ e * 2 ^ e := by field_simp
    have habs := abs_le.1 hr1
    have hle_emax : ∀ {e : ℤ}, e ≤ f.emax → (2 : ℚ) ^ e ≤ 2 ^ f.emax := fun h => zpow_le_zpow_right₀ (by norm_num) h
    have hmaxpos : (0 : ℚ) < 2 ^ f.emax := by positivity
    -- too large if the exponent is
    have hbig : f.emax < e → (2 ^ f.p - 1 / 2) * 2 ^ f.emax ≤ q := by
      intro h
      have h1 : (2 : ℚ) ^ (f.p - 1) ≤ q / 2 ^ e := by
        rcases hlow with h' | h'
        · have := hf.e; omega
        · exact h'
      have h2 : (2 : ℚ) * 2 ^ f.emax ≤ 2 ^ e := by
        rw [show (2 : ℚ) * 2 ^ f.emax = 2 ^ (f.emax + 1) by rw [zpow_add_one₀ (by norm_num)]; ring]
        exact zpow_le_zpow_right₀ (by norm_num) (by omega)
      rw [hqx]
      calc (2 ^ f.p - 1 / 2) * (2 : ℚ) ^ f.emax ≤ 2 ^ f.p * 2 ^ f.emax := by
            apply mul_le_mul_of_nonneg_right _ (le_of_lt hmaxpos); linarith
        _ = 2 ^ (f.p - 1) * (2 * 2 ^ f.emax) := by rw [hpp]; ring
        _ ≤ 2 ^ (f.p - 1) * 2 ^ e := mul_le_mul_of_nonneg_left h2 (by linarith)
        _ ≤ _ := mul_le_mul_of_nonneg_right h1 (le_of_lt hpos)
    by_cases hm : m < 2 ^ f.p
    · rw [if_pos hm]
      have hm1 : (m : ℚ) ≤ 2 ^ f.p - 1 := by
        have : (m : ℚ) + 1 ≤ 2 ^ f.p := by exact_mod_cast hm
        linarith
      by_cases hee : e ≤ f.emax
      · rw [if_pos hee]
        have hsmall : q < (2 ^ f.p - 1 / 2) * 2 ^ f.emax := by
          have hx : q / 2 ^ e < 2 ^ f.p - 1 / 2 := by
            rcases lt_or_eq_of_le (show q / 2 ^ e ≤ 2 ^ f.p - 1 / 2 by linarith) with h | h
            · exact h
            · exfalso
              have h1 : (m : ℚ) = 2 ^ f.p - 1 := by linarith
              have h2 := hr2 (by rw [h, h1]; norm_num)
              have h3 : m + 1 = 2 ^ f.p := by
                have : (m : ℚ) + 1 = 2 ^ f.p := by linarith
                exact_mod_cast this
              have h4 : 2 ^ f.p % 2 = 0 := by
                rw [show f.p = (f.p - 1) + 1 by omega, pow_succ]; omega
              omega
          rw [hqx]
          calc q / 2 ^ e * (2 : ℚ) ^ e < (2 ^ f.p - 1 / 2) * 2 ^ e := mul_lt_mul_of_pos_right hx hpos
            _ ≤ _ := mul_le_mul_of_nonneg_left (hle_emax hee) (by linarith)
        refine ⟨fun h => absurd hsmall (not_lt.2 h), fun _ => ⟨m, e, rfl, ?_⟩⟩
        refine ⟨⟨m, e, by simpa using by exact_mod_cast hm, hemin, hee, by push_cast; rfl⟩, fun r' h => (hnear r' h).1, fun r' h hne heq => ?_⟩
        have h2 := hr2 ((hnear r' h).2 hne heq)
        exact ⟨m, e, by simpa using by exact_mod_cast hm, hemin, hee, by omega, by push_cast; rfl⟩
      · rw [if_neg hee]
        exact ⟨fun _ => rfl, fun h => absurd (hbig (by omega)) h⟩
    · rw [if_neg hm]
      have hm2 : m = 2 ^ f.p := by
        have h1 : (m : ℚ) < 2 ^ f.p + 1 := by linarith
        have h2 : m < 2 ^ f.p + 1 := by exact_mod_cast h1
        omega
      by_cases hee : e + 1 ≤ f.emax
      · rw [if_pos hee]
        have hval : ((2 ^ (f.p - 1) : ℕ) : ℚ) * 2 ^ (e + 1) = m * 2 ^ e := by
          rw [hm2, zpow_add_one₀ (by norm_num)]
          push_cast
          rw [hpp]; ring
        have hsmall : q < (2 ^ f.p - 1 / 2) * 2 ^ f.emax := by
          have h1 : (2 : ℚ) * 2 ^ e ≤ 2 ^ f.emax := by
            rw [show (2 : ℚ) * 2 ^ e = 2 ^ (e + 1) by rw [zpow_add_one₀ (by norm_num)]; ring]
            exact hle_emax hee
          rw [hqx]
          calc q / 2 ^ e * (2 : ℚ) ^ e < 2 ^ f.p * 2 ^ e := mul_lt_mul_of_pos_right hx2 hpos
            _ = 2 ^ (f.p - 1) * (2 * 2 ^ e) := by rw [hpp]; ring
            _ ≤ 2 ^ (f.p - 1) * 2 ^ f.emax := mul_le_mul_of_nonneg_left h1 (by linarith)
            _ ≤ _ := by apply mul_le_mul_of_nonneg_right _ (le_of_lt hmaxpos); linarith
        have hlt : (2 : ℤ) ^ (f.p - 1) < 2 ^ f.p := pow_lt_pow_right₀ (by norm_num) (by omega)
        refine ⟨fun h => absurd hsmall (not_lt.2 h), fun _ => ⟨2 ^ (f.p - 1), e + 1, rfl, ?_⟩⟩
        have hev : IsEvenFloat f (((2 ^ (f.p - 1) : ℕ) : ℚ) * 2 ^ (e + 1)) := by
          refine ⟨2 ^ (f.p - 1), e + 1, by rw [abs_of_pos (by positivity)]; exact hlt, by omega, hee, ?_, by push_cast; rfl⟩
          rw [show f.p - 1 = (f.p - 2) + 1 by omega, pow_succ]
          exact Dvd.intro_left _ rfl
        refine ⟨⟨2 ^ (f.p - 1), e + 1, by rw [abs_of_pos (by positivity)]; exact hlt, by omega, hee, by push_cast; rfl⟩, ?_, ?_⟩
        · intro r' h
          rw [hval]
          exact (hnear r' h).1
        · intro r' _ _ _
          exact hev
      · rw [if_neg hee]
        refine ⟨fun _ => rfl, fun h => absurd ?_ h⟩
        by_cases h : f.emax < e
        · exact hbig h
        · have : e = f.emax := by omega
          rw [hqx, ← this]
          apply mul_le_mul_of_nonneg_right _ (le_of_lt hpos)
          have : (m : ℚ) = 2 ^ f.p := by rw [hm2]; push_cast; rfl
          linarith

theorem Spec.IsFloat.neg (h : IsFloat f q) : IsFloat f (-q) := by
  obtain ⟨m, e, h1, h2, h3, rfl⟩ := h
  exact ⟨-m, e, by rwa [abs_neg], h2, h3, by push_cast; ring⟩

theorem Spec.Nearest.neg (h : Nearest f q r) : Nearest f (-q) (-r) := by
  have habs : ∀ x : ℚ, |-q - x| = |q - -x| := fun x => by rw [← abs_neg]; congr 1; ring
  refine ⟨h.float.neg, fun r' hr => ?_, fun r' hr hne heq => ?_⟩
  · rw [habs, habs, neg_neg]
    exact h.near _ hr.neg
  · rw [habs, habs, neg_neg] at heq
    obtain ⟨m, e, h1, h2, h3, h4, h5⟩ := h.even _ hr.neg (fun hc => hne (by rw [← hc, neg_neg])) heq
    exact ⟨-m, e, by rwa [abs_neg], h2, h3, by omega, by rw [h5]; push_cast; ring⟩

/-- Of two even numbers, there is one between that is nearer. -/
theorem even_not_nearest (q r r' : ℚ) (m e m' e' : ℤ) (hm : |m| < 2 ^ f.p) (h1 : f.emin ≤ e) (h2 : e ≤ f.emax)
    (hd : 2 ∣ m) (hd' : 2 ∣ m') (hr : r = m * 2 ^ e) (hr' : r' = m' * 2 ^ e') (hee : e ≤ e') (hlt : r < r') (hq : q = (r + r') / 2)
    (hp : 2 ≤ f.p) (hn : ∀ x, IsFloat f x → |q - r| ≤ |q - x|) : False := by
  have hpos : (0 : ℚ) < 2 ^ e := by positivity
  obtain ⟨j, rfl⟩ := hd
  obtain ⟨j', rfl⟩ := hd'
  have hpe : (2 : ℤ) ^ f.p = 2 * 2 ^ (f.p - 1) := by rw [← pow_succ']; congr 1; omega
  have hfl : IsFloat f ((2 * j + 1 : ℤ) * 2 ^ e) := by
    refine ⟨2 * j + 1, e, ?_, h1, h2, rfl⟩
    rw [abs_lt] at hm ⊢
    constructor <;> omega
  have h := hn _ hfl
  have hr2 : r' = ((2 * (j' * 2 ^ (e' - e).toNat) : ℤ) : ℚ) * 2 ^ e := by
    rw [hr']
    have : (2 : ℚ) ^ e' = 2 ^ (e' - e) * 2 ^ e := by rw [← zpow_add₀ (by norm_num)]; congr 1; ring
    rw [this, two_zpow_nonneg _ (by omega)]
    push_cast
    ring
  generalize j' * 2 ^ (e' - e).toNat = k at hr2
  rw [hr, hr2] at hlt
  have hjk : ((2 * j : ℤ) : ℚ) < ((2 * k : ℤ) : ℚ) := lt_of_mul_lt_mul_right hlt (le_of_lt hpos)
  have hjk : 2 * j < 2 * k := by exact_mod_cast hjk
  have hjk' : (j : ℚ) + 1 ≤ k := by exact_mod_cast (show j + 1 ≤ k by omega)
  have e1 : q - r = ((k : ℚ) - j) * 2 ^ e := by rw [hq, hr, hr2]; push_cast; ring
  have e2 : q - (2 * j + 1 : ℤ) * 2 ^ e = ((k : ℚ) - j - 1) * 2 ^ e := by rw [hq, hr, hr2]; push_cast; ring
  rw [e1, e2, abs_of_nonneg (mul_nonneg (by linarith) (le_of_lt hpos)), abs_of_nonneg (mul_nonneg (by linarith) (le_of_lt hpos))] at h
  have := le_of_mul_le_mul_right h hpos
  linarith

theorem nearest_mid (hp : 2 ≤ f.p) (h : Nearest f q r) (h' : Nearest f q r') (hlt : r < r') : False := by
  have e1 : |q - r| = |q - r'| := le_antisymm (h.near _ h'.float) (h'.near _ h.float)
  have hq : q = (r + r') / 2 := by
    rcases abs_eq_abs.1 e1 with h | h <;> linarith
  obtain ⟨m, e, a1, a2, a3, a4, a5⟩ := h.even _ h'.float (ne_of_gt hlt) e1
  obtain ⟨m', e', b1, b2, b3, b4, b5⟩ := h'.even _ h.float (ne_of_lt hlt) e1.symm
  by_cases hee : e ≤ e'
  · exact even_not_nearest q r r' m e m' e' a1 a2 a3 a4 b4 a5 b5 hee hlt hq hp h.near
  · refine even_not_nearest (-q) (-r') (-r) (-m') e' (-m) e (by rwa [abs_neg]) b2 b3 (by omega) (by omega) (by rw [b5]; push_cast; ring)
      (by rw [a5]; push_cast; ring) (by omega) (by linarith) (by rw [hq]; ring) hp h'.neg.near

theorem Spec.Nearest.unique (hp : 2 ≤ f.p) (h : Nearest f q r) (h' : Nearest f q r') : r = r' := by
  rcases lt_trichotomy r r' with hl | hl | hl
  · exact (nearest_mid hp h h' hl).elim
  · exact hl
  · exact (nearest_mid hp h' h hl).elim

theorem Spec.Nearest.mono (hp : 2 ≤ f.p) (h : Nearest f q r) (h' : Nearest f q' r') (hq : q ≤ q') : r ≤ r' := by
  by_contra hlt
  push Not at hlt
  have e1 := h.near _ h'.float
  have e2 := h'.near _ h.float
  have h1 : (r + r') / 2 ≤ q := by
    by_contra hc
    push Not at hc
    have : |q - r'| < |q - r| := by
      rw [abs_of_nonpos (show q - r ≤ 0 by linarith), abs_lt]
      constructor <;> linarith
    linarith
  have h2 : q' ≤ (r + r') / 2 := by
    by_contra hc
    push Not at hc
    have : |q' - r| < |q' - r'| := by
      rw [abs_of_nonneg (show 0 ≤ q' - r' by linarith), abs_lt]
      constructor <;> linarith
    linarith
  have hqq : q = q' := by linarith
  subst hqq
  exact absurd (h.unique hp h') (ne_of_gt hlt)

theorem Spec.Nearest.exact (h : Nearest f q r) (hq : IsFloat f q) : r = q := by
  have := h.near q hq
  rw [sub_self, abs_zero] at this
  have := abs_eq_zero.1 (le_antisymm this (abs_nonneg _))
  linarith

end Mlio
