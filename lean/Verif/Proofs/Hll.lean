import Verif.Spec.Hll

/-! Lemmas about cardinality estimators. -/

namespace Mlio
open Spec

/-- The loop finds the first one. -/
theorem leadingZeros_spec : ∀ (n x : Nat), x < 2 ^ 32 → n ≤ 32 →
    (leadingZeros n x = n ∧ x < 2 ^ (32 - n)) ∨
    (leadingZeros n x < n ∧ 2 ^ (31 - leadingZeros n x) ≤ x ∧ x < 2 ^ (32 - leadingZeros n x)) := by
  intro n
  induction n with
  | zero => intro x hx _; left; exact ⟨rfl, by simpa using hx⟩
  | succ n ih =>
    intro x hx hn
    simp only [leadingZeros]
    by_cases h : 2 ^ 31 ≤ x
    · rw [if_pos h]; right; exact ⟨by omega, by simpa using h, by simpa using hx⟩
    · rw [if_neg h]
      have e : 2 * x % 2 ^ 32 = 2 * x := Nat.mod_eq_of_lt (by omega)
      rw [e]
      rcases ih (2 * x) (by omega) (by omega) with ⟨a, b⟩ | ⟨a, b, c⟩
      · left
        refine ⟨by omega, ?_⟩
        have : 2 ^ (32 - n) = 2 * 2 ^ (32 - (n + 1)) := by
          rw [← Nat.pow_succ']; congr 1; omega
        omega
      · right
        refine ⟨by omega, ?_, ?_⟩
        · have : 2 ^ (31 - leadingZeros n (2 * x)) = 2 * 2 ^ (31 - (1 + leadingZeros n (2 * x))) := by
            rw [← Nat.pow_succ']; congr 1; omega
          omega
        · have : 2 ^ (32 - leadingZeros n (2 * x)) = 2 * 2 ^ (32 - (1 + leadingZeros n (2 * x))) := by
            rw [← Nat.pow_succ']; congr 1; omega
          omega

theorem shifted (b h : Nat) (hb : b ≤ 32) : h * 2 ^ b % 2 ^ 32 = 2 ^ b * (h % 2 ^ (32 - b)) := by
  have : 2 ^ 32 = 2 ^ b * 2 ^ (32 - b) := by rw [← Nat.pow_add]; congr 1; omega
  rw [this, Nat.mul_comm h, Nat.mul_mod_mul_left]

/-- The rank as the loop computes it. -/
theorem firstOne_loop (b h : Nat) (hb : HllWidth b) :
    FirstOne b h (1 + leadingZeros (32 - b) (h * 2 ^ b % 2 ^ 32)) := by
  obtain ⟨hb4, hb30⟩ := hb
  have hx : h * 2 ^ b % 2 ^ 32 < 2 ^ 32 := Nat.mod_lt _ (by decide)
  have hsh := shifted b h (by omega)
  have hpos : 0 < 2 ^ b := Nat.pow_pos (by decide)
  rcases leadingZeros_spec (32 - b) _ hx (by omega) with ⟨a, c⟩ | ⟨a, c, d⟩
  · left
    rw [a]
    refine ⟨?_, by omega⟩
    rw [hsh] at c
    have e : 32 - (32 - b) = b := by omega
    rw [e] at c
    have : h % 2 ^ (32 - b) < 1 := Nat.lt_of_mul_lt_mul_left (a := 2 ^ b) (by omega)
    omega
  · right
    generalize hl : leadingZeros (32 - b) (h * 2 ^ b % 2 ^ 32) = l at a c d
    rw [hsh] at c d
    have e1 : 2 ^ (31 - l) = 2 ^ b * 2 ^ (32 - b - (1 + l)) := by rw [← Nat.pow_add]; congr 1; omega
    have e2 : 2 ^ (32 - l) = 2 ^ b * 2 ^ (32 - b - (1 + l) + 1) := by rw [← Nat.pow_add]; congr 1; omega
    rw [e1] at c; rw [e2] at d
    exact ⟨by omega, by omega, Nat.le_of_mul_le_mul_left c hpos, Nat.lt_of_mul_lt_mul_left d⟩

/-- There is one first one. -/
theorem firstOne_unique {b h r r' : Nat} (h1 : FirstOne b h r) (h2 : FirstOne b h r') : r = r' := by
  rcases h1 with ⟨a1, a2⟩ | ⟨a1, a2, a3, a4⟩ <;> rcases h2 with ⟨b1, b2⟩ | ⟨b1, b2, b3, b4⟩
  · omega
  · rw [a1] at b3
    have : 0 < 2 ^ (32 - b - r') := Nat.pow_pos (by decide)
    omega
  · rw [b1] at a3
    have : 0 < 2 ^ (32 - b - r) := Nat.pow_pos (by decide)
    omega
  · rcases Nat.lt_trichotomy r r' with hlt | rfl | hlt
    · have : 2 ^ (32 - b - r' + 1) ≤ 2 ^ (32 - b - r) := Nat.pow_le_pow_right (by decide) (by omega)
      omega
    · rfl
    · have : 2 ^ (32 - b - r + 1) ≤ 2 ^ (32 - b - r') := Nat.pow_le_pow_right (by decide) (by omega)
      omega

theorem firstOne_pos {b h r : Nat} (hb : HllWidth b) (h1 : FirstOne b h r) : 1 ≤ r ∧ r ≤ 33 - b := by
  obtain ⟨_, _⟩ := hb
  rcases h1 with ⟨a1, a2⟩ | ⟨a1, a2, a3, a4⟩ <;> omega

/-- Both ways of counting zeros agree where both are defined. -/
theorem getClz_spec (builtin : Bool) (b h : Nat) (hb : HllWidth b) (hd : builtin = true → h % 2 ^ (32 - b) ≠ 0) :
    ∃ r, getClz builtin (h * 2 ^ b % 2 ^ 32) (32 - b) = .ok r ∧ FirstOne b h r := by
  have hf := firstOne_loop b h hb
  cases builtin with
  | false => exact ⟨_, by simp only [getClz, Bool.false_eq_true, if_false], hf⟩
  | true =>
    have hpos : 0 < 2 ^ b := Nat.pow_pos (by decide)
    have hx : ¬ h * 2 ^ b % 2 ^ 32 = 0 := by
      rw [shifted b h (by have := hb.2; omega)]
      intro hz
      rcases Nat.mul_eq_zero.1 hz with hz | hz
      · omega
      · exact hd rfl hz
    refine ⟨min (32 - b) (leadingZeros 32 (h * 2 ^ b % 2 ^ 32)) + 1, by simp only [getClz, if_true, if_neg hx], ?_⟩
    have hlt : h * 2 ^ b % 2 ^ 32 < 2 ^ 32 := Nat.mod_lt _ (by decide)
    obtain ⟨h4, h30⟩ := hb
    have hle : 2 ^ b ≤ h * 2 ^ b % 2 ^ 32 := by
      rw [shifted b h (by omega)]
      exact Nat.le_mul_of_pos_right _ (Nat.pos_of_ne_zero (hd rfl))
    have key : min (32 - b) (leadingZeros 32 (h * 2 ^ b % 2 ^ 32)) + 1 = 1 + leadingZeros (32 - b) (h * 2 ^ b % 2 ^ 32) := by
      generalize h * 2 ^ b % 2 ^ 32 = x at hx hlt hle
      rcases leadingZeros_spec 32 x hlt (by omega) with ⟨a, c⟩ | ⟨a, c, d⟩
      · omega
      · rcases leadingZeros_spec (32 - b) x hlt (by omega) with ⟨a', c'⟩ | ⟨a', c', d'⟩
        · have e : 32 - (32 - b) = b := by omega
          rw [e] at c'
          omega
        · have : leadingZeros 32 x = leadingZeros (32 - b) x := by
            generalize leadingZeros 32 x = u at *
            generalize leadingZeros (32 - b) x = v at *
            rcases Nat.lt_trichotomy u v with hl | he | hl
            · have : 2 ^ (32 - v) ≤ 2 ^ (31 - u) := Nat.pow_le_pow_right (by decide) (by omega)
              omega
            · exact he
            · have : 2 ^ (32 - u) ≤ 2 ^ (31 - v) := Nat.pow_le_pow_right (by decide) (by omega)
              omega
          omega
    rw [key]
    exact hf

theorem bucket_lt {b h : Nat} (hb : HllWidth b) (hh : h < 2 ^ 32) : bucket b h < 2 ^ b := by
  unfold bucket
  have : 2 ^ 32 = 2 ^ (32 - b) * 2 ^ b := by rw [← Nat.pow_add]; congr 1; have := hb.2; omega
  exact Nat.div_lt_of_lt_mul (by rw [← this]; exact hh)

theorem getD_set_eq (l : List Nat) (i x : Nat) (h : i < l.length) : (l.set i x).getD i 0 = x := by
  simp [List.getD, h]

theorem getD_set_ne (l : List Nat) (i j x : Nat) (h : i ≠ j) : (l.set i x).getD j 0 = l.getD j 0 := by
  simp [List.getD, List.getElem?_set, h]

/-- Adding one value. -/
theorem add_sketch (builtin : Bool) (b : Nat) (hb : HllWidth b) (hs : Nat → Prop) (s : Hll) (hsk : IsSketch b hs s) (h : Nat)
    (hh : h < 2 ^ 32) (hd : builtin = true → h % 2 ^ (32 - b) ≠ 0) :
    ∃ s', s.add builtin h = .ok s' ∧ IsSketch b (fun x => x = h ∨ hs x) s' := by
  obtain ⟨r, hr, hf⟩ := getClz_spec builtin b h hb hd
  have hw := hsk.width
  have hbk := bucket_lt hb hh
  have hbl : bucket b h < s.regs.length := by rw [hsk.size]; exact hbk
  have hidx : h / 2 ^ (32 - s.b) = bucket b h := by rw [hw]; rfl
  have hadd : s.add builtin h = .ok (if s.regs.getD (bucket b h) 0 < r then { s with regs := s.regs.set (bucket b h) r } else s) := by
    simp only [Hll.add, hw, hr, bucket]
  refine ⟨_, hadd, ?_⟩
  by_cases hlt : s.regs.getD (bucket b h) 0 < r
  · rw [if_pos hlt]
    refine ⟨hw, by simp only [List.length_set]; exact hsk.size, ?_, ?_⟩
    · rintro x (rfl | hx)
      · exact ⟨r, hf, by simp only [getD_set_eq _ _ _ hbl]; exact Nat.le_refl _⟩
      · obtain ⟨r', hr', hle⟩ := hsk.bound x hx
        refine ⟨r', hr', ?_⟩
        by_cases e : bucket b h = bucket b x
        · rw [← e] at hle ⊢
          simp only [getD_set_eq _ _ _ hbl]; omega
        · simp only [getD_set_ne _ _ _ _ e]; exact hle
    · intro i hi
      by_cases e : bucket b h = i
      · subst e
        exact Or.inr ⟨h, Or.inl rfl, rfl, by simp only [getD_set_eq _ _ _ hbl]; exact hf⟩
      · simp only [getD_set_ne _ _ _ _ e]
        rcases hsk.reached i hi with h0 | ⟨x, h1, h2, h3⟩
        · exact Or.inl h0
        · exact Or.inr ⟨x, Or.inr h1, h2, h3⟩
  · rw [if_neg hlt]
    refine ⟨hw, hsk.size, ?_, ?_⟩
    · rintro x (rfl | hx)
      · exact ⟨r, hf, by omega⟩
      · exact hsk.bound x hx
    · intro i hi
      rcases hsk.reached i hi with h0 | ⟨x, h1, h2, h3⟩
      · exact Or.inl h0
      · exact Or.inr ⟨x, Or.inr h1, h2, h3⟩

theorem isSketch_congr {b : Nat} {p q : Nat → Prop} {s : Hll} (h : IsSketch b p s) (hpq : ∀ x, p x ↔ q x) : IsSketch b q s := by
  have : p = q := funext fun x => propext (hpq x)
  rw [← this]; exact h

theorem addAll_sketch (builtin : Bool) (b : Nat) (hb : HllWidth b) : ∀ (vs : List Nat) (hs : Nat → Prop) (s : Hll), IsSketch b hs s →
    Hashes builtin b vs → ∃ s', s.addAll builtin vs = .ok s' ∧ IsSketch b (fun x => x ∈ vs ∨ hs x) s' := by
  intro vs
  induction vs with
  | nil => intro hs s h _; exact ⟨s, rfl, isSketch_congr h (by simp)⟩
  | cons v vs ih =>
    intro hs s h hh
    obtain ⟨h1, h2⟩ := hh v (by simp)
    obtain ⟨s1, e1, k1⟩ := add_sketch builtin b hb hs s h v h1 h2
    obtain ⟨s2, e2, k2⟩ := ih _ s1 k1 (fun x hx => hh x (by simp [hx]))
    refine ⟨s2, by simp only [Hll.addAll, e1, e2], isSketch_congr k2 ?_⟩
    intro x
    simp only [List.mem_cons]
    constructor
    · rintro (h | h | h)
      · exact Or.inl (Or.inr h)
      · exact Or.inl (Or.inl h)
      · exact Or.inr h
    · rintro ((h | h) | h)
      · exact Or.inr (Or.inl h)
      · exact Or.inl h
      · exact Or.inr (Or.inr h)

theorem new_sketch (b : Nat) (hb : HllWidth b) : ∃ s, Hll.new b = .ok s ∧ IsSketch b (fun _ => False) s := by
  obtain ⟨h4, h30⟩ := hb
  refine ⟨⟨b, List.replicate (2 ^ b) 0⟩, ?_, rfl, by simp, by simp, ?_⟩
  · unfold Hll.new
    rw [if_neg (by omega), if_neg (by omega)]
  · intro i hi
    left
    simp [List.getD, List.getElem?_replicate]
    split <;> rfl

/-- The registers are determined. -/
theorem sketch_unique {b : Nat} (hb : HllWidth b) {hs : Nat → Prop} {s t : Hll} (h1 : IsSketch b hs s) (h2 : IsSketch b hs t) : s = t := by
  have hle : ∀ {s t : Hll}, IsSketch b hs s → IsSketch b hs t → ∀ i, i < 2 ^ b → s.regs.getD i 0 ≤ t.regs.getD i 0 := by
    intro s t h1 h2 i hi
    rcases h1.reached i hi with h0 | ⟨x, a1, a2, a3⟩
    · omega
    · obtain ⟨r, hr, hle⟩ := h2.bound x a1
      rw [firstOne_unique a3 hr, ← a2]
      exact hle
  have hregs : s.regs = t.regs := by
    apply List.ext_getElem (by rw [h1.size, h2.size])
    intro i hi hi'
    have hi2 : i < 2 ^ b := by rw [← h1.size]; exact hi
    have a := hle h1 h2 i hi2
    have c := hle h2 h1 i hi2
    simp only [List.getD, List.getElem?_eq_getElem hi, List.getElem?_eq_getElem hi', Option.getD_some] at a c
    omega
  have hw : s.b = t.b := by rw [h1.width, h2.width]
  cases s; cases t; simp_all

theorem ext_getD {l l' : List Nat} (hlen : l.length = l'.length) (h : ∀ i, l.getD i 0 = l'.getD i 0) : l = l' := by
  apply List.ext_getElem hlen
  intro i hi hi'
  have := h i
  simpa [List.getD, List.getElem?_eq_getElem hi, List.getElem?_eq_getElem hi'] using this

end Mlio
