import Verif.Proofs.Round
import Verif.Proofs.Number

/-! # The syntax of numbers -/

namespace Mlio

open Spec

theorem numDigit_iff (hex : Bool) (c : UInt8) : numDigit hex c = true ↔ IsDigitOf hex c := by
  unfold numDigit IsDigitOf
  simp only [Bool.or_eq_true, Bool.and_eq_true, decide_eq_true_eq, UInt8.le_iff_toNat_le]
  rfl

theorem digitNat_eq (c : UInt8) :
    digitNat c = if c.toNat ≤ 57 then c.toNat - 48 else if c.toNat ≤ 70 then c.toNat - 55 else c.toNat - 87 := by
  unfold digitNat
  simp only [UInt8.le_iff_toNat_le]
  rfl

theorem digitsNat_eq (base : Nat) (ds : Bytes) : digitsNat base ds = digitSum base ds := by
  have : ∀ v, ds.foldl (fun v c => base * v + digitNat c) v = v * base ^ ds.length + digitSum base ds := by
    induction ds with
    | nil => intro v; simp [digitSum]
    | cons c cs ih =>
      intro v
      rw [List.foldl_cons, ih, digitSum, digitNat_eq, List.length_cons, pow_succ]
      ring
  unfold digitsNat
  rw [this 0]
  simp

theorem takeWhile_stop (p : UInt8 → Bool) (a b : Bytes) (ha : ∀ c ∈ a, p c = true) (hb : ∀ c, b.head? = some c → p c = false) :
    (a ++ b).takeWhile p = a ∧ (a ++ b).dropWhile p = b := by
  induction a with
  | nil =>
    cases b with
    | nil => simp
    | cons c b => simp [hb c rfl]
  | cons c a ih =>
    have h := ih (fun x hx => ha x (List.mem_cons_of_mem _ hx))
    simp [ha c List.mem_cons_self, h.1, h.2]

/-! ## Exponents -/

def expoBytes (x : Option (UInt8 × Sign × Bytes)) : Bytes := x.elim [] fun x => x.1 :: (x.2.1.bytes ++ x.2.2)

def expoValue (x : Option (UInt8 × Sign × Bytes)) : ℤ :=
  x.elim 0 fun x => if x.2.1 = .minus then -(digitSum 10 x.2.2 : ℤ) else digitSum 10 x.2.2

def ExpoValid (hex : Bool) (x : Option (UInt8 × Sign × Bytes)) : Prop :=
  (∀ y, x = some y → (if hex then y.1 = 112 ∨ y.1 = 80 else y.1 = 101 ∨ y.1 = 69)) ∧
  (∀ y, x = some y → y.2.2 ≠ [] ∧ ∀ c ∈ y.2.2, IsDigitOf false c)

theorem isExpChar_iff (hex : Bool) (c : UInt8) :
    isExpChar hex c = true ↔ (if hex then c = 112 ∨ c = 80 else c = 101 ∨ c = 69) := by
  unfold isExpChar
  cases hex <;> simp

theorem not_digit_sign (c : UInt8) (h : IsDigitOf false c) : c ≠ 43 ∧ c ≠ 45 := by
  unfold IsDigitOf at h
  constructor <;> (rintro rfl; revert h; decide)

theorem scanExp_bytes (hex : Bool) (x : Option (UInt8 × Sign × Bytes)) (h : ExpoValid hex x) :
    scanExp hex (expoBytes x) = (expoValue x, []) := by
  cases x with
  | none => rfl
  | some y =>
    obtain ⟨c, sg, ds⟩ := y
    obtain ⟨h1, h2⟩ := h
    have hch := (isExpChar_iff hex c).2 (h1 _ rfl)
    clear h1
    obtain ⟨hne, hd⟩ := h2 _ rfl
    have hd' : ∀ c ∈ ds, numDigit false c = true := fun c hc => (numDigit_iff false c).2 (hd c hc)
    have ht := takeWhile_stop (numDigit false) ds [] hd' (by simp)
    rw [List.append_nil] at ht
    cases ds with
    | nil => exact absurd rfl hne
    | cons d ds =>
      have hs := not_digit_sign d (hd d List.mem_cons_self)
      cases sg
      · simp [scanExp, expoBytes, expoValue, Sign.bytes, hch, hs.1, hs.2, ht.1, ht.2, digitsNat_eq]
      · simp [scanExp, expoBytes, expoValue, Sign.bytes, hch, ht.1, ht.2, digitsNat_eq]
      · simp [scanExp, expoBytes, expoValue, Sign.bytes, hch, ht.1, ht.2, digitsNat_eq]

theorem scanExp_nil (hex : Bool) (s : Bytes) (x : ℤ) (h : scanExp hex s = (x, [])) :
    ∃ y, ExpoValid hex y ∧ s = expoBytes y := by
  cases s with
  | nil => exact ⟨none, ⟨by simp, by simp⟩, rfl⟩
  | cons c r =>
    unfold scanExp at h
    simp only at h
    by_cases hc : isExpChar hex c = true
    · rw [if_pos hc] at h
      obtain ⟨sg, r1, hr, hr1⟩ : ∃ (sg : Sign) (r1 : Bytes), r = sg.bytes ++ r1 ∧
          (if r.head? == some 45 || r.head? == some 43 then r.tail else r) = r1 := by
        by_cases h45 : r.head? = some 45
        · refine ⟨.minus, r.tail, ?_, by simp [h45]⟩
          cases r with
          | nil => simp at h45
          | cons a r => simp at h45; subst h45; rfl
        · by_cases h43 : r.head? = some 43
          · refine ⟨.plus, r.tail, ?_, by simp [h43]⟩
            cases r with
            | nil => simp at h43
            | cons a r => simp at h43; subst h43; rfl
          · exact ⟨.none, r, by simp [Sign.bytes], by simp [h45, h43]⟩
      rw [hr1] at h
      by_cases hds : r1.takeWhile (numDigit false) = []
      · rw [if_pos hds] at h
        simp at h
      · rw [if_neg hds] at h
        have hdrop := (Prod.mk.inj h).2
        have hall : r1.takeWhile (numDigit false) = r1 := by
          have := List.takeWhile_append_dropWhile (p := numDigit false) (l := r1)
          rwa [hdrop, List.append_nil] at this
        rw [hall] at hds
        refine ⟨some (c, sg, r1), ⟨?_, ?_⟩, by simp [expoBytes, hr]⟩
        · rintro y rfl_
          cases rfl_
          exact (isExpChar_iff hex c).1 hc
        · rintro y rfl_
          cases rfl_
          refine ⟨hds, fun c hc => (numDigit_iff false c).1 ?_⟩
          exact mem_takeWhile _ r1 c (by rw [hall]; exact hc)
    · rw [if_neg hc] at h
      simp at h

/-! ## Digits, point and exponent -/

def fracBytes (f : Option Bytes) : Bytes := f.elim [] fun f => 46 :: f

structure BodyValid (hex : Bool) (w : Bytes) (fr : Option Bytes) (ex : Option (UInt8 × Sign × Bytes)) : Prop where
  whole : ∀ c ∈ w, IsDigitOf hex c
  frac : ∀ c ∈ fr.getD [], IsDigitOf hex c
  digits : w ++ fr.getD [] ≠ []
  expo : ExpoValid hex ex

theorem expo_head (h : ExpoValid hex x) (c : UInt8) (hc : (expoBytes x).head? = some c) :
    numDigit hex c = false ∧ c ≠ 46 := by
  cases x with
  | none => simp [expoBytes] at hc
  | some y =>
    simp [expoBytes] at hc
    subst hc
    have := h.1 _ rfl
    cases hex
    · simp only [Bool.false_eq_true, if_false] at this
      rcases this with h | h <;> rw [h] <;> decide
    · simp only [if_true] at this
      rcases this with h | h <;> rw [h] <;> decide

theorem numDigit_point (hex : Bool) : numDigit hex 46 = false := by cases hex <;> decide

theorem scanFloat_bytes (h : BodyValid hex whole frac expo) :
    scanFloat hex (whole ++ (fracBytes frac ++ expoBytes expo)) =
      some (digitSum (if hex then 16 else 10) (whole ++ frac.getD []),
        expoValue expo - (if hex then 4 else 1) * ((frac.getD []).length : ℤ), []) := by
  have hw : ∀ c ∈ whole, numDigit hex c = true := fun c hc => (numDigit_iff hex c).2 (h.whole c hc)
  have hf : ∀ c ∈ frac.getD [], numDigit hex c = true := fun c hc => (numDigit_iff hex c).2 (h.frac c hc)
  have he := scanExp_bytes hex expo h.expo
  have hh := fun c hc => expo_head h.expo c hc
  have hne := h.digits
  unfold scanFloat
  cases frac with
  | none =>
    have ht := takeWhile_stop (numDigit hex) whole (expoBytes expo) hw (fun c hc => (hh c hc).1)
    have hp : (expoBytes expo).head? ≠ some 46 := fun hc => (hh _ hc).2 rfl
    simp only [fracBytes, Option.elim, List.nil_append, ht.1, ht.2, Option.getD_none, List.append_nil] at hne ⊢
    simp [hp, he, hne, digitsNat_eq]
  | some f =>
    have ht := takeWhile_stop (numDigit hex) whole (46 :: (f ++ expoBytes expo)) hw
      (fun c hc => by simp at hc; subst hc; exact numDigit_point hex)
    have ht2 := takeWhile_stop (numDigit hex) f (expoBytes expo) hf (fun c hc => (hh c hc).1)
    simp only [fracBytes, Option.elim, List.cons_append, ht.1, ht.2, Option.getD_some] at hne ⊢
    simp only [List.head?_cons, beq_self_eq_true, if_true, List.tail_cons, ht2.1, ht2.2, he]
    rw [if_neg (by simpa using hne), digitsNat_eq]

theorem scanFloat_nil (hex : Bool) (s : Bytes) (a : Nat) (x : ℤ) (h : scanFloat hex s = some (a, x, [])) :
    ∃ whole frac expo, BodyValid hex whole frac expo ∧ s = whole ++ (fracBytes frac ++ expoBytes expo) := by
  have hs := List.takeWhile_append_dropWhile (p := numDigit hex) (l := s)
  have hw : ∀ c ∈ s.takeWhile (numDigit hex), IsDigitOf hex c := fun c hc => (numDigit_iff hex c).1 (mem_takeWhile _ _ _ hc)
  unfold scanFloat at h
  generalize s.dropWhile (numDigit hex) = r at *
  generalize s.takeWhile (numDigit hex) = w at *
  by_cases hp : r.head? = some 46
  · obtain ⟨r', rfl⟩ : ∃ r', r = 46 :: r' := by
      cases r with
      | nil => simp at hp
      | cons a r => simp at hp; exact ⟨r, by rw [hp]⟩
    simp only [List.head?_cons, beq_self_eq_true, if_true, List.tail_cons] at h
    by_cases hne : w = [] ∧ r'.takeWhile (numDigit hex) = []
    · rw [if_pos hne] at h; exact absurd h (by simp)
    · rw [if_neg hne] at h
      have h := Option.some.inj h
      have hr := (Prod.mk.inj (Prod.mk.inj h).2).2
      obtain ⟨y, hy, hb⟩ := scanExp_nil hex _ _ (Prod.ext rfl hr)
      refine ⟨w, some (r'.takeWhile (numDigit hex)), y, ⟨hw, ?_, ?_, hy⟩, ?_⟩
      · intro c hc
        exact (numDigit_iff hex c).1 (mem_takeWhile _ _ _ hc)
      · simpa using hne
      · rw [← hs, ← hb, fracBytes, Option.elim, List.cons_append, List.takeWhile_append_dropWhile]
  · have hp' : (r.head? == some 46) = false := by simpa using hp
    simp only [hp', Bool.false_eq_true, if_false] at h
    by_cases hne : w = []
    · rw [if_pos ⟨hne, trivial⟩] at h; exact absurd h (by simp)
    · rw [if_neg (fun hc => hne hc.1)] at h
      have h := Option.some.inj h
      have hr := (Prod.mk.inj (Prod.mk.inj h).2).2
      obtain ⟨y, hy, hb⟩ := scanExp_nil hex _ _ (Prod.ext rfl hr)
      refine ⟨w, none, y, ⟨hw, by simp, ?_, hy⟩, ?_⟩
      · simpa using hne
      · rw [← hs, ← hb]; rfl

/-! ## The whole number -/

/-- The bytes of decimal numbers. -/
theorem body_bytes (h : BodyValid false whole frac expo) (c : UInt8) (hc : c ∈ whole ++ (fracBytes frac ++ expoBytes expo)) :
    IsDigitOf false c ∨ c = 46 ∨ c = 101 ∨ c = 69 ∨ c = 43 ∨ c = 45 := by
  rcases List.mem_append.1 hc with hc | hc
  · exact .inl (h.whole c hc)
  · rcases List.mem_append.1 hc with hc | hc
    · cases frac with
      | none => simp [fracBytes] at hc
      | some f =>
        simp only [fracBytes, Option.elim, List.mem_cons] at hc
        rcases hc with hc | hc
        · exact .inr (.inl hc)
        · exact .inl (h.frac c hc)
    · cases expo with
      | none => simp [expoBytes] at hc
      | some y =>
        simp only [expoBytes, Option.elim, List.mem_cons, List.mem_append] at hc
        rcases hc with hc | hc | hc
        · have := h.expo.1 _ rfl
          simp only [Bool.false_eq_true, if_false] at this
          rcases this with h | h
          · exact .inr (.inr (.inl (hc.trans h)))
          · exact .inr (.inr (.inr (.inl (hc.trans h))))
        · revert hc
          cases y.2.1 <;> simp [Sign.bytes] <;> (rintro rfl; simp)
        · exact .inl ((h.expo.2 _ rfl).2 c hc)

theorem not_letter (c : UInt8) (h : IsDigitOf false c ∨ c = 46 ∨ c = 101 ∨ c = 69 ∨ c = 43 ∨ c = 45) :
    c ≠ 120 ∧ c ≠ 88 ∧ lowerByte c ≠ 105 ∧ lowerByte c ≠ 110 ∧ isSpace c = false := by
  rcases h with h | rfl | rfl | rfl | rfl | rfl
  · unfold IsDigitOf at h
    have h : 48 ≤ c.toNat ∧ c.toNat ≤ 57 := by simpa using h
    have hl : lowerByte c = c := by
      unfold lowerByte
      rw [if_neg]
      simp only [Bool.and_eq_true, decide_eq_true_eq, UInt8.le_iff_toNat_le]
      have : (65 : UInt8).toNat = 65 := rfl
      omega
    rw [hl]
    refine ⟨?_, ?_, ?_, ?_, ?_⟩
    · rintro rfl; exact absurd h (by decide)
    · rintro rfl; exact absurd h (by decide)
    · rintro rfl; exact absurd h (by decide)
    · rintro rfl; exact absurd h (by decide)
    · rw [Bool.eq_false_iff]
      intro hc
      rw [isSpace_iff] at hc
      simp only [List.mem_cons, List.not_mem_nil, or_false] at hc
      rcases hc with rfl | rfl | rfl | rfl | rfl | rfl <;> exact absurd h (by decide)
  all_goals decide

theorem frac_den_pos (base a : Nat) (hb : 0 < base) (x : ℤ) : 0 < (fracOf base a x).2 := by
  unfold fracOf
  split
  · exact Nat.one_pos
  · exact Nat.pow_pos hb

theorem frac_value (base a : Nat) (hb : 0 < base) (x : ℤ) :
    ((fracOf base a x).1 : ℚ) / (fracOf base a x).2 = a * (base : ℚ) ^ x := by
  unfold fracOf
  have hb' : (base : ℚ) ≠ 0 := by exact_mod_cast (Nat.pos_iff_ne_zero.1 hb)
  split
  · rename_i h
    obtain ⟨n, rfl⟩ := Int.eq_ofNat_of_zero_le h
    simp
  · rename_i h
    obtain ⟨n, hn⟩ := Int.eq_ofNat_of_zero_le (show 0 ≤ -x by omega)
    have : x = -(n : ℤ) := by omega
    subst this
    simp [div_eq_mul_inv]

theorem BodyValid.ne_nil (h : BodyValid hex w fr ex) : w ++ (fracBytes fr ++ expoBytes ex) ≠ [] := by
  intro hc
  have hd := h.digits
  rw [List.append_eq_nil_iff, List.append_eq_nil_iff] at hc
  cases fr with
  | none => simp [hc.1] at hd
  | some f => simp [fracBytes] at hc

theorem fromChars_decimal (f : FloatFormat) (neg : Bool) (h : BodyValid false whole frac expo) :
    fromChars f neg (whole ++ (fracBytes frac ++ expoBytes expo)) =
      some (toFlt f neg (fracOf 10 (digitSum 10 (whole ++ frac.getD [])) (expoValue expo - (frac.getD []).length)).1
        (fracOf 10 (digitSum 10 (whole ++ frac.getD [])) (expoValue expo - (frac.getD []).length)).2) := by
  have hs := scanFloat_bytes h
  have hb := fun c hc => not_letter c (body_bytes h c hc)
  have hne := h.ne_nil
  generalize whole ++ (fracBytes frac ++ expoBytes expo) = s at *
  have h2 : ∀ c, c = 120 ∨ c = 88 → s.take 2 ≠ [48, c] := by
    intro c hc ht
    have : c ∈ s := List.mem_of_mem_take (i := 2) (by rw [ht]; simp)
    have := hb c this
    rcases hc with rfl | rfl
    · exact this.1 rfl
    · exact this.2.1 rfl
  have hsp : specialFlt neg s = none := by
    cases s with
    | nil => exact absurd rfl hne
    | cons c r =>
      have := hb c List.mem_cons_self
      simp [specialFlt, this.2.2.1, this.2.2.2.1]
  unfold fromChars
  rw [if_neg (by rintro (hc | hc); exact h2 _ (.inl rfl) hc; exact h2 _ (.inr rfl) hc), hsp]
  simp only [hs]
  simp

theorem fromChars_hex (f : FloatFormat) (neg : Bool) (c : UInt8) (hc : c = 120 ∨ c = 88) (h : BodyValid true whole frac expo) :
    fromChars f neg ([48, c] ++ (whole ++ (fracBytes frac ++ expoBytes expo))) =
      some (toFlt f neg (fracOf 2 (digitSum 16 (whole ++ frac.getD [])) (expoValue expo - 4 * (frac.getD []).length)).1
        (fracOf 2 (digitSum 16 (whole ++ frac.getD [])) (expoValue expo - 4 * (frac.getD []).length)).2) := by
  have hs := scanFloat_bytes h
  unfold fromChars
  have h1 : ([48, c] ++ (whole ++ (fracBytes frac ++ expoBytes expo))).take 2 = [48, c] := by simp
  have h2 : ([48, c] ++ (whole ++ (fracBytes frac ++ expoBytes expo))).drop 2 = whole ++ (fracBytes frac ++ expoBytes expo) := by simp
  rw [if_pos (by rw [h1]; rcases hc with rfl | rfl <;> simp), h2, hs]
  simp

/-- What the sign is followed by. -/
theorem simpleAtof_sign (f : FloatFormat) (pre post : Bytes) (hpre : White pre) (hpost : White post) (sg : Sign) (s : Bytes)
    (hsp : ∀ c ∈ s, isSpace c = false) (hne : s ≠ []) (hh : s.head? ≠ some 43 ∧ s.head? ≠ some 45) :
    simpleAtof f (pre ++ (sg.bytes ++ s) ++ post) = fromChars f (decide (sg = .minus)) s := by
  have ht : trim (pre ++ (sg.bytes ++ s) ++ post) = sg.bytes ++ s := by
    have hall : ∀ c ∈ sg.bytes ++ s, isSpace c = false := by
      intro c hc
      rcases List.mem_append.1 hc with hc | hc
      · revert hc
        cases sg <;> simp [Sign.bytes] <;> (rintro rfl; decide)
      · exact hsp c hc
    exact trim_eq _ _ _ (white_isSpace _ hpre) (white_isSpace _ hpost) (fun c hc => hall c (List.mem_of_head? hc))
      (fun c hc => hall c (List.mem_of_getLast? hc)) (by simp [hne])
  unfold simpleAtof
  rw [ht]
  cases s with
  | nil => exact absurd rfl hne
  | cons c s =>
    simp only [List.head?_cons, ne_eq, Option.some.injEq] at hh
    cases sg
    · simp only [Sign.bytes, List.nil_append]
      split
      · rename_i heq; injection heq with h1 _; exact absurd h1 hh.1
      · rename_i heq; injection heq with h1 _; exact absurd h1 hh.1
      · rename_i heq; injection heq with h1 _; exact absurd h1 hh.2
      · rfl
    · simp only [Sign.bytes, List.cons_append, List.nil_append]
      split
      · rename_i heq; injection heq with _ h1; injection h1 with h1 _; exact absurd h1 hh.2
      · rename_i heq; injection heq with _ h1; rw [h1]; rfl
      · rename_i heq; injection heq with h1 _; exact absurd h1 (by decide)
      · rename_i h1 _; exact absurd rfl (h1 _)
    · simp only [Sign.bytes, List.cons_append, List.nil_append]
      rfl

theorem NumText.body (t : NumText) (h : t.Valid) : BodyValid t.hex.isSome t.whole t.frac t.expo :=
  ⟨h.whole, h.frac, h.digits, h.letter, h.expo⟩

theorem hexbody_bytes (h : BodyValid true whole frac expo) (c : UInt8) (hc : c ∈ whole ++ (fracBytes frac ++ expoBytes expo)) :
    isSpace c = false := by
  have hdig : ∀ c, IsDigitOf true c → isSpace c = false := by
    intro c h
    rw [Bool.eq_false_iff]
    intro hc
    rw [isSpace_iff] at hc
    simp only [List.mem_cons, List.not_mem_nil, or_false] at hc
    unfold IsDigitOf at h
    rcases hc with rfl | rfl | rfl | rfl | rfl | rfl <;> exact absurd h (by decide)
  rcases List.mem_append.1 hc with hc | hc
  · exact hdig _ (h.whole c hc)
  · rcases List.mem_append.1 hc with hc | hc
    · cases frac with
      | none => simp [fracBytes] at hc
      | some f =>
        simp only [fracBytes, Option.elim, List.mem_cons] at hc
        rcases hc with rfl | hc
        · decide
        · exact hdig _ (h.frac c hc)
    · cases expo with
      | none => simp [expoBytes] at hc
      | some y =>
        simp only [expoBytes, Option.elim, List.mem_cons, List.mem_append] at hc
        rcases hc with hc | hc | hc
        · have := h.expo.1 _ rfl
          simp only [if_true] at this
          rw [hc]
          rcases this with h | h <;> rw [h] <;> decide
        · revert hc
          cases y.2.1 <;> simp [Sign.bytes] <;> (rintro rfl; decide)
        · exact hdig _ (.inl (by simpa [IsDigitOf] using (h.expo.2 _ rfl).2 c hc))

theorem body_head (h : BodyValid false whole frac expo) (c : UInt8) (hc : (whole ++ (fracBytes frac ++ expoBytes expo)).head? = some c) :
    IsDigitOf false c ∨ c = 46 := by
  cases whole with
  | cons d w => simp at hc; subst hc; exact .inl (h.whole _ List.mem_cons_self)
  | nil =>
    cases frac with
    | none => exact absurd rfl h.digits
    | some f => simp [fracBytes] at hc; exact .inr hc.symm

theorem NumText.bytes_eq (t : NumText) :
    t.bytes = t.pre ++ (t.sign.bytes ++ ((t.hex.elim [] fun c => [48, c]) ++ (t.whole ++ (fracBytes t.frac ++ expoBytes t.expo)))) ++ t.post := by
  unfold NumText.bytes fracBytes expoBytes
  simp only [List.append_assoc]

theorem simpleAtof_number (f : FloatFormat) (t : NumText) (h : t.Valid) :
    ∃ a d : ℕ, 0 < d ∧ simpleAtof f t.bytes = some (toFlt f (decide (t.sign = .minus)) a d) ∧
      t.value = (if t.sign = .minus then -1 else 1) * ((a : ℚ) / d) := by
  have hb := NumText.body t h
  have hbytes := NumText.bytes_eq t
  have hhex := h.hex
  have hexp : t.exponent = expoValue t.expo := rfl
  obtain ⟨pre, sg, hx, whole, frac, expo, post⟩ := t
  simp only at hb hhex hexp
  rw [hbytes]
  simp only
  cases hx with
  | none =>
    simp only [Option.elim, List.nil_append, Option.isSome_none] at hb ⊢
    refine ⟨(fracOf 10 (digitSum 10 (whole ++ frac.getD [])) (expoValue expo - (frac.getD []).length)).1, _, frac_den_pos 10 (digitSum 10 (whole ++ frac.getD [])) (by decide) (expoValue expo - (frac.getD []).length), ?_, ?_⟩
    · rw [simpleAtof_sign f pre post h.pre h.post sg _ (fun c hc => (not_letter c (body_bytes hb c hc)).2.2.2.2) hb.ne_nil, fromChars_decimal f _ hb]
      constructor
      · intro hc
        rcases body_head hb _ hc with h | h
        · exact absurd rfl (not_digit_sign _ h).1
        · exact absurd h (by decide)
      · intro hc
        rcases body_head hb _ hc with h | h
        · exact absurd rfl (not_digit_sign _ h).2
        · exact absurd h (by decide)
    · rw [frac_value 10 _ (by decide)]
      unfold NumText.value
      rw [hexp]
      simp only [Option.isSome_none, Bool.false_eq_true, if_false]
      congr 1
      push_cast
      rw [zpow_sub₀ (by norm_num), zpow_natCast]
      ring
  | some c =>
    simp only [Option.elim, Option.isSome_some] at hb ⊢
    have hc := hhex c rfl
    refine ⟨(fracOf 2 (digitSum 16 (whole ++ frac.getD [])) (expoValue expo - 4 * (frac.getD []).length)).1, _, frac_den_pos 2 (digitSum 16 (whole ++ frac.getD [])) (by decide) (expoValue expo - 4 * (frac.getD []).length), ?_, ?_⟩
    · rw [simpleAtof_sign f pre post h.pre h.post sg _ ?_ (by simp) (by simp), fromChars_hex f _ c hc hb]
      intro x hx
      rcases List.mem_append.1 hx with hx | hx
      · simp at hx
        rcases hx with rfl | rfl
        · decide
        · rcases hc with rfl | rfl <;> decide
      · exact hexbody_bytes hb x hx
    · rw [frac_value 2 _ (by decide)]
      unfold NumText.value
      rw [hexp]
      simp only [Option.isSome_some, if_true]
      congr 1
      push_cast
      rw [zpow_sub₀ (by norm_num), zpow_mul]
      rw [show ((2 : ℚ) ^ (4 : ℤ)) = 16 by norm_num, zpow_natCast]
      ring

theorem nanPayload_iff (r : Bytes) : nanPayload r = true ↔ ∃ x, r = 40 :: (x ++ [41]) ∧ ∀ c ∈ x, isNanChar c = true := by
  unfold nanPayload
  cases r with
  | nil => simp
  | cons c cs =>
    simp only [Bool.and_eq_true, beq_iff_eq, List.all_eq_true]
    constructor
    · rintro ⟨⟨rfl, h⟩, ha⟩
      have hne : cs ≠ [] := by rintro rfl; simp at h
      refine ⟨cs.dropLast, ?_, ha⟩
      rw [List.getLast?_eq_some_getLast hne] at h
      injection h with h
      rw [← h, List.dropLast_append_getLast]
    · rintro ⟨x, h, ha⟩
      injection h with h1 h2
      subst h1 h2
      simp
      exact ha

theorem isNanChar_iff (x : UInt8) : isNanChar x = true ↔
    (x.toNat = 95 ∨ (48 ≤ x.toNat ∧ x.toNat ≤ 57) ∨ (65 ≤ x.toNat ∧ x.toNat ≤ 90) ∨ (97 ≤ x.toNat ∧ x.toNat ≤ 122)) := by
  unfold isNanChar
  simp only [Bool.or_eq_true, Bool.and_eq_true, decide_eq_true_eq, UInt8.le_iff_toNat_le, beq_iff_eq]
  have : x = 95 ↔ x.toNat = 95 := ⟨fun h => by rw [h]; rfl, fun h => UInt8.toNat_inj.1 h⟩
  rw [this, or_assoc, or_assoc]
  rfl

theorem every_byte (P : UInt8 → Prop) (h : ∀ n : Fin 256, P (UInt8.ofNat n.val)) (c : UInt8) : P c := by
  have := h ⟨c.toNat, c.toNat_lt⟩
  simpa using this

theorem lower_eq_n (c : UInt8) : lowerByte c = 110 ↔ c = 110 ∨ c = 78 :=
  every_byte (fun c => lowerByte c = 110 ↔ c = 110 ∨ c = 78) (by decide +kernel) c

theorem lower_eq_a (c : UInt8) : lowerByte c = 97 ↔ c = 97 ∨ c = 65 :=
  every_byte (fun c => lowerByte c = 97 ↔ c = 97 ∨ c = 65) (by decide +kernel) c

theorem specialFlt_cases (neg : Bool) (s : Bytes) (v : Flt) (h : specialFlt neg s = some v) :
    v = .inf neg ∨ (v = .nan ∧ ∃ a b c args, (a = 110 ∨ a = 78) ∧ (b = 97 ∨ b = 65) ∧ (c = 110 ∨ c = 78) ∧
      (∀ x ∈ Option.getD args [], isNanChar x = true) ∧ s = [a, b, c] ++ (args.elim [] fun x => 40 :: (x ++ [41]))) := by
  unfold specialFlt at h
  simp only at h
  split at h
  · left; injection h with h; exact h.symm
  · split at h
    · rename_i hn
      right
      injection h with h
      obtain ⟨h3, hr⟩ := hn
      refine ⟨h.symm, ?_⟩
      match s, h3, hr with
      | a :: b :: c :: r, h3, hr =>
        simp only [List.map_cons, List.take_succ_cons, List.take_zero, List.cons.injEq, and_true] at h3
        rw [lower_eq_n, lower_eq_a, lower_eq_n] at h3
        rcases hr with hr | hr
        · have : r = [] := by simpa using hr
          subst this
          exact ⟨a, b, c, none, h3.1, h3.2.1, h3.2.2, by simp, rfl⟩
        · obtain ⟨x, hx, ha⟩ := (nanPayload_iff _).1 hr
          simp only [List.drop_succ_cons, List.drop_zero] at hx
          exact ⟨a, b, c, some x, h3.1, h3.2.1, h3.2.2, ha, by rw [hx]; rfl⟩
      | [], h3, _ => simp at h3
      | [a], h3, _ => simp at h3
      | [a, b], h3, _ => simp at h3
    · simp at h

theorem fromChars_number (f : FloatFormat) (neg : Bool) (s : Bytes) (v : Flt) (h : fromChars f neg s = some v) :
    (∃ hex whole frac expo, (∀ c, hex = some c → c = 120 ∨ c = 88) ∧ BodyValid (Option.isSome hex) whole frac expo ∧
      s = (hex.elim [] fun c => [48, c]) ++ (whole ++ (fracBytes frac ++ expoBytes expo))) ∨ specialFlt neg s = some v := by
  unfold fromChars at h
  split at h
  · rename_i hh
    split at h
    · rename_i a x heq
      left
      obtain ⟨w, fr, ex, hv, hs⟩ := scanFloat_nil true _ _ _ heq
      have hs' := List.take_append_drop 2 s
      rw [hs] at hs'
      rcases hh with hh | hh
      · exact ⟨some 120, w, fr, ex, by simp, hv, by rw [← hs', hh]; rfl⟩
      · exact ⟨some 88, w, fr, ex, by simp, hv, by rw [← hs', hh]; rfl⟩
    · simp at h
  · split at h
    · rename_i w heq
      right
      rw [heq, h]
    · split at h
      · rename_i a x heq
        left
        obtain ⟨w, fr, ex, hv, hs⟩ := scanFloat_nil false _ _ _ heq
        exact ⟨none, w, fr, ex, by simp, hv, by rw [hs]; rfl⟩
      · simp at h

/-- What accepted texts are, behind the sign. -/
theorem fromChars_cases (f : FloatFormat) (neg : Bool) (s : Bytes) (v : Flt) (h : fromChars f neg s = some v) :
    (∃ hex whole frac expo, (∀ c, hex = some c → c = 120 ∨ c = 88) ∧ BodyValid (Option.isSome hex) whole frac expo ∧
      s = (hex.elim [] fun c => [48, c]) ++ (whole ++ (fracBytes frac ++ expoBytes expo))) ∨
    v = .inf neg ∨ (v = .nan ∧ ∃ a b c args, (a = 110 ∨ a = 78) ∧ (b = 97 ∨ b = 65) ∧ (c = 110 ∨ c = 78) ∧
      (∀ x ∈ Option.getD args [], isNanChar x = true) ∧ s = [a, b, c] ++ (args.elim [] fun x => 40 :: (x ++ [41]))) := by
  rcases fromChars_number f neg s v h with h | h
  · exact .inl h
  · exact .inr (specialFlt_cases neg s v h)

theorem simpleAtof_cases (f : FloatFormat) (s : Bytes) (v : Flt) (h : simpleAtof f s = some v) :
    (∃ t : NumText, t.Valid ∧ t.bytes = s) ∨ (∃ neg, v = .inf neg) ∨ (v = .nan ∧ IsNanText s) := by
  obtain ⟨pre, post, hs, hpre, hpost⟩ := trim_split s
  have hpre : White pre := fun c hc => (isSpace_iff c).1 (hpre c hc)
  have hpost : White post := fun c hc => (isSpace_iff c).1 (hpost c hc)
  have key : ∀ (sg : Sign) (r : Bytes) (neg : Bool), trim s = sg.bytes ++ r → fromChars f neg r = some v →
      (∃ t : NumText, t.Valid ∧ t.bytes = s) ∨ (∃ neg, v = .inf neg) ∨ (v = .nan ∧ IsNanText s) := by
    intro sg r neg hr hv
    rw [hr] at hs
    rcases fromChars_cases f neg r v hv with ⟨hex, w, fr, ex, hh, hb, hrb⟩ | hinf | ⟨hnan, a, b, c, args, ha, hb, hc, hargs, hrb⟩
    · left
      refine ⟨⟨pre, sg, hex, w, fr, ex, post⟩, ⟨hpre, hpost, hh, hb.whole, hb.frac, hb.digits, hb.expo.1, hb.expo.2⟩, ?_⟩
      rw [NumText.bytes_eq]
      simp only
      rw [hs, hrb]
    · exact .inr (.inl ⟨neg, hinf⟩)
    · refine .inr (.inr ⟨hnan, pre, sg, a, b, c, args, post, hpre, hpost, ha, hb, hc, fun x hx => (isNanChar_iff x).1 (hargs x hx), ?_⟩)
      rw [hs, hrb]
      simp only [List.append_assoc]
  unfold simpleAtof at h
  split at h
  · simp at h
  · rename_i r _ heq
    exact key .plus r false (by rw [heq]; rfl) h
  · rename_i r heq
    exact key .minus r true (by rw [heq]; rfl) h
  · exact key .none _ false rfl h

theorem simpleAtof_nan (f : FloatFormat) (s : Bytes) (h : IsNanText s) : simpleAtof f s = some .nan := by
  obtain ⟨pre, sg, a, b, c, args, post, hpre, hpost, ha, hb, hc, hargs, rfl⟩ := h
  have hargs : ∀ x ∈ args.getD [], isNanChar x = true := fun x hx => (isNanChar_iff x).2 (hargs x hx)
  rw [show pre ++ sg.bytes ++ [a, b, c] ++ (args.elim [] fun x => 40 :: (x ++ [41])) ++ post =
    pre ++ (sg.bytes ++ ([a, b, c] ++ (args.elim [] fun x => 40 :: (x ++ [41])))) ++ post by simp only [List.append_assoc]]
  rw [simpleAtof_sign f pre post hpre hpost sg _ ?_ (by simp)]
  · have hsp : specialFlt (decide (sg = .minus)) ([a, b, c] ++ (args.elim [] fun x => 40 :: (x ++ [41]))) = some .nan := by
      have h1 := (lower_eq_n a).2 ha
      have h2 := (lower_eq_a b).2 hb
      have h3 := (lower_eq_n c).2 hc
      unfold specialFlt
      simp only [List.cons_append, List.nil_append, List.map_cons, h1, h2, h3]
      rw [if_neg (by simp), if_pos]
      refine ⟨by simp, ?_⟩
      cases args with
      | none => left; rfl
      | some x => right; exact (nanPayload_iff _).2 ⟨x, rfl, hargs⟩
    unfold fromChars
    rw [if_neg, hsp]
    simp only [List.cons_append, List.nil_append, List.take_succ_cons, List.take_zero, List.cons.injEq]
    rcases ha with rfl | rfl <;> simp
  · rcases ha with rfl | rfl <;> simp
  · intro x hx
    have hn : ∀ x, isNanChar x = true → isSpace x = false := every_byte (fun x => isNanChar x = true → isSpace x = false) (by decide +kernel)
    rcases List.mem_append.1 hx with hx | hx
    · simp only [List.mem_cons, List.not_mem_nil, or_false] at hx
      rcases hx with rfl | rfl | rfl
      · rcases ha with rfl | rfl <;> decide
      · rcases hb with rfl | rfl <;> decide
      · rcases hc with rfl | rfl <;> decide
    · cases args with
      | none => simp at hx
      | some y =>
        simp only [Option.elim, List.mem_cons, List.mem_append, List.not_mem_nil, or_false] at hx
        rcases hx with rfl | hx | rfl
        · decide
        · exact hn x (hargs x hx)
        · decide

theorem map_lower (w l : Bytes) (hl : ∀ x ∈ l, 97 ≤ x.toNat ∧ x.toNat ≤ 122) :
    w.map lowerByte = l ↔ List.Forall₂ (fun c l => c = l ∨ c = l - 32) w l := by
  induction l generalizing w with
  | nil => cases w <;> simp
  | cons x l ih =>
    cases w with
    | nil => simp
    | cons c w =>
      have hx := hl x List.mem_cons_self
      have key : lowerByte c = x ↔ c = x ∨ c = x - 32 := by
        have h := every_byte (fun x => 97 ≤ x.toNat ∧ x.toNat ≤ 122 → ∀ n : Fin 256,
          (lowerByte (UInt8.ofNat n.val) = x ↔ UInt8.ofNat n.val = x ∨ UInt8.ofNat n.val = x - 32)) (by decide +kernel) x hx ⟨c.toNat, c.toNat_lt⟩
        simpa using h
      rw [List.map_cons, List.cons.injEq, List.forall₂_cons, key, ih _ (fun y hy => hl y (List.mem_cons_of_mem _ hy))]

theorem specialFlt_inf (neg : Bool) (s : Bytes) (n : Bool) : specialFlt neg s = some (.inf n) ↔ n = neg ∧
    (List.Forall₂ (fun c l => c = l ∨ c = l - 32) s [105, 110, 102] ∨
      List.Forall₂ (fun c l => c = l ∨ c = l - 32) s [105, 110, 102, 105, 110, 105, 116, 121]) := by
  rw [← map_lower s _ (by decide), ← map_lower s _ (by decide)]
  unfold specialFlt
  simp only
  split
  · rename_i h
    constructor
    · intro h'
      injection h' with h'
      injection h' with h'
      exact ⟨h'.symm, h⟩
    · rintro ⟨rfl, _⟩; rfl
  · rename_i h
    split
    · simp [h]
    · simp [h]

theorem simpleAtof_infText (f : FloatFormat) (s : Bytes) (h : IsInfText s) : ∃ neg, simpleAtof f s = some (.inf neg) := by
  obtain ⟨pre, sg, w, post, hpre, hpost, hw, rfl⟩ := h
  have hsp := (specialFlt_inf (decide (sg = .minus)) w _).2 ⟨rfl, hw⟩
  have hmem : ∀ c ∈ w, 97 ≤ (lowerByte c).toNat := by
    intro c hc
    have hm : lowerByte c ∈ w.map lowerByte := List.mem_map.2 ⟨c, hc, rfl⟩
    rw [← map_lower w _ (by decide), ← map_lower w _ (by decide)] at hw
    rcases hw with hw | hw
    · rw [hw] at hm
      exact (by decide : ∀ x ∈ ([105, 110, 102] : Bytes), 97 ≤ x.toNat) _ hm
    · rw [hw] at hm
      exact (by decide : ∀ x ∈ ([105, 110, 102, 105, 110, 105, 116, 121] : Bytes), 97 ≤ x.toNat) _ hm
  have hb : ∀ c ∈ w, isSpace c = false ∧ c ≠ 43 ∧ c ≠ 45 ∧ c ≠ 48 := fun c hc =>
    every_byte (fun c => 97 ≤ (lowerByte c).toNat → isSpace c = false ∧ c ≠ 43 ∧ c ≠ 45 ∧ c ≠ 48) (by decide +kernel) c (hmem c hc)
  have hne : w ≠ [] := by
    rintro rfl
    rcases hw with hw | hw <;> cases hw
  refine ⟨decide (sg = .minus), ?_⟩
  rw [List.append_assoc pre, simpleAtof_sign f pre post hpre hpost sg w (fun c hc => (hb c hc).1) hne
    ⟨fun hc => (hb _ (List.mem_of_head? hc)).2.1 rfl, fun hc => (hb _ (List.mem_of_head? hc)).2.2.1 rfl⟩]
  unfold fromChars
  rw [if_neg, hsp]
  have h0 : ∀ c, w.take 2 ≠ [48, c] := by
    intro c hc
    exact (hb 48 (List.mem_of_mem_take (i := 2) (by rw [hc]; simp))).2.2.2 rfl
  rintro (hc | hc)
  · exact h0 _ hc
  · exact h0 _ hc

/-- Infinities that are not rounded come from their texts. -/
theorem simpleAtof_inf (f : FloatFormat) (s : Bytes) (neg : Bool) (h : simpleAtof f s = some (.inf neg)) : IsNumText s ∨ IsInfText s := by
  obtain ⟨pre, post, hs, hpre, hpost⟩ := trim_split s
  have hpre' : White pre := fun c hc => (isSpace_iff c).1 (hpre c hc)
  have hpost' : White post := fun c hc => (isSpace_iff c).1 (hpost c hc)
  have key : ∀ (sg : Sign) (r : Bytes) (n : Bool), trim s = sg.bytes ++ r → fromChars f n r = some (.inf neg) → IsNumText s ∨ IsInfText s := by
    intro sg r n hr hv
    by_cases hsp : specialFlt n r = some (.inf neg)
    · right
      refine ⟨pre, sg, r, post, hpre', hpost', ((specialFlt_inf n r neg).1 hsp).2, ?_⟩
      rw [hr] at hs
      rw [hs]
      simp only [List.append_assoc]
    · left
      rcases simpleAtof_cases f s _ h with hc | ⟨_, _⟩ | ⟨hc, _⟩
      · exact hc
      · rcases fromChars_number f n r _ hv with hc | hc
        · obtain ⟨hex, w, fr, ex, hh, hb, hrb⟩ := hc
          refine ⟨⟨pre, sg, hex, w, fr, ex, post⟩, ⟨hpre', hpost', hh, hb.whole, hb.frac, hb.digits, hb.expo.1, hb.expo.2⟩, ?_⟩
          rw [NumText.bytes_eq]
          simp only
          rw [hr] at hs
          rw [hs, hrb]
        · exact absurd hc hsp
      · cases hc
  have h' := h
  unfold simpleAtof at h'
  split at h'
  · simp at h'
  · rename_i r _ heq
    exact key .plus r false (by rw [heq]; rfl) h'
  · rename_i r heq
    exact key .minus r true (by rw [heq]; rfl) h'
  · exact key .none _ false rfl h'

theorem trim_head (s : Bytes) (c : UInt8) (h : (trim s).head? = some c) : isSpace c = false := by
  have hd : ∀ l : Bytes, ∀ c, (l.dropWhile isSpace).head? = some c → isSpace c = false := by
    intro l
    induction l with
    | nil => simp
    | cons x l ih =>
      intro c
      by_cases hx : isSpace x = true
      · rw [List.dropWhile_cons_of_pos hx]; exact ih c
      · rw [List.dropWhile_cons_of_neg hx]
        intro hc
        simp at hc
        subst hc
        simpa using hx
  -- what is left is a beginning of what is left of the front
  have hpre : trim s <+: s.dropWhile isSpace := by
    unfold trim
    rw [← List.reverse_suffix, List.reverse_reverse]
    exact List.dropWhile_suffix _
  obtain ⟨r, hr⟩ := hpre
  apply hd s c
  rw [← hr]
  cases ht : trim s with
  | nil => rw [ht] at h; simp at h
  | cons x l => rw [ht] at h; simpa using h

theorem trim_last (s : Bytes) (c : UInt8) (h : (trim s).getLast? = some c) : isSpace c = false := by
  unfold trim at h
  rw [List.getLast?_reverse] at h
  generalize (s.dropWhile isSpace).reverse = l at h
  induction l with
  | nil => simp at h
  | cons x l ih =>
    by_cases hx : isSpace x = true
    · rw [List.dropWhile_cons_of_pos hx] at h; exact ih h
    · rw [List.dropWhile_cons_of_neg hx] at h
      simp at h
      subst h
      simpa using hx

theorem inSet_iff (set : List Bytes) (s : Bytes) : set.contains (trim s) = true ↔ InSet set s := by
  have hw : ∀ c, ¬ White [c] ↔ isSpace c = false := by
    intro c
    rw [← Bool.not_eq_true, isSpace_iff]
    simp [White]
  rw [List.contains_iff_mem]
  constructor
  · intro h
    obtain ⟨pre, post, hs, hpre, hpost⟩ := trim_split s
    refine ⟨pre, trim s, post, fun c hc => (isSpace_iff c).1 (hpre c hc), fun c hc => (isSpace_iff c).1 (hpost c hc), hs, h, ?_, ?_⟩
    · intro c hc
      rw [hw]
      exact trim_head s c hc
    · intro c hc
      rw [hw]
      exact trim_last s c hc
  · rintro ⟨pre, w, post, hpre, hpost, rfl, hm, h1, h2⟩
    by_cases hne : w = []
    · subst hne
      have : trim (pre ++ [] ++ post) = [] := by
        unfold trim
        rw [List.append_nil]
        have : (pre ++ post).dropWhile isSpace = [] := by
          have := (takeWhile_stop isSpace (pre ++ post) [] ?_ (by simp)).2
          · rwa [List.append_nil] at this
          intro c hc
          rcases List.mem_append.1 hc with hc | hc
          · exact white_isSpace _ hpre c hc
          · exact white_isSpace _ hpost c hc
        rw [this]; rfl
      rw [this]
      exact hm
    · rw [trim_eq pre w post (white_isSpace _ hpre) (white_isSpace _ hpost) (fun c hc => (hw c).1 (h1 c hc)) (fun c hc => (hw c).1 (h2 c hc)) hne]
      exact hm

end Mlio
