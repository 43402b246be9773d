import Verif.Model.Number
import Verif.Spec.Number

namespace Mlio

open Spec

theorem isSpace_iff (c : UInt8) : isSpace c = true ↔ c ∈ ([32, 9, 10, 11, 12, 13] : List UInt8) := by
  simp only [isSpace, Bool.or_eq_true, beq_iff_eq, Bool.and_eq_true, decide_eq_true_eq, UInt8.le_iff_toNat_le,
    List.mem_cons, List.not_mem_nil, or_false, ← UInt8.toNat_inj]
  simp
  omega

theorem mem_takeWhile (p : UInt8 → Bool) (l : Bytes) (c : UInt8) (h : c ∈ l.takeWhile p) : p c = true := by
  induction l with
  | nil => simp at h
  | cons x l ih =>
    rw [List.takeWhile_cons] at h
    split at h
    · rcases List.mem_cons.1 h with rfl | h
      · assumption
      · exact ih h
    · simp at h

theorem white_isSpace (b : Bytes) (h : White b) : ∀ c ∈ b, isSpace c = true :=
  fun c hc => (isSpace_iff c).2 (h c hc)

theorem dropWhile_append_all (p : UInt8 → Bool) (a b : Bytes) (h : ∀ c ∈ a, p c = true) :
    (a ++ b).dropWhile p = b.dropWhile p := by
  induction a with
  | nil => rfl
  | cons c a ih =>
    simp only [List.cons_append, List.dropWhile_cons, h c (by simp), if_true]
    exact ih (fun c' hc' => h c' (by simp [hc']))

theorem dropWhile_head (p : UInt8 → Bool) (b : Bytes) (h : ∀ c, b.head? = some c → p c = false) :
    b.dropWhile p = b := by
  cases b with
  | nil => rfl
  | cons c b => simp [List.dropWhile_cons, h c rfl]

/-- Trimming removes the white space around. -/
theorem trim_eq (pre core post : Bytes) (hpre : ∀ c ∈ pre, isSpace c = true) (hpost : ∀ c ∈ post, isSpace c = true)
    (hh : ∀ c, core.head? = some c → isSpace c = false) (hl : ∀ c, core.getLast? = some c → isSpace c = false)
    (hne : core ≠ []) : trim (pre ++ core ++ post) = core := by
  unfold trim
  rw [List.append_assoc, dropWhile_append_all _ _ _ hpre]
  rw [dropWhile_head _ (core ++ post)]
  · rw [List.reverse_append, dropWhile_append_all _ _ _ (by simpa using hpost), dropWhile_head, List.reverse_reverse]
    intro c hc
    rw [List.head?_reverse] at hc
    exact hl c hc
  · intro c hc
    apply hh
    cases core with
    | nil => exact absurd rfl hne
    | cons x xs => simpa using hc

/-- What is left after trimming, and what was removed. -/
theorem trim_split (s : Bytes) : ∃ pre post, s = pre ++ trim s ++ post ∧ (∀ c ∈ pre, isSpace c = true) ∧
    (∀ c ∈ post, isSpace c = true) := by
  refine ⟨s.takeWhile isSpace, ((s.dropWhile isSpace).reverse.takeWhile isSpace).reverse, ?_, ?_, ?_⟩
  · unfold trim
    rw [List.append_assoc, ← List.reverse_append, List.takeWhile_append_dropWhile, List.reverse_reverse,
      List.takeWhile_append_dropWhile]
  · intro c hc
    exact mem_takeWhile _ _ _ hc
  · intro c hc
    exact mem_takeWhile _ _ _ (List.mem_reverse.1 hc)

/-! ## Digits -/

theorem digit?_some (c : UInt8) (d : Nat) (h : digit? c = some d) : d < 10 ∧ c = UInt8.ofNat (48 + d) := by
  unfold digit? at h
  split at h
  · rename_i hc
    simp only [Bool.and_eq_true, decide_eq_true_eq, UInt8.le_iff_toNat_le] at hc
    simp at hc
    injection h with h
    subst h
    refine ⟨by omega, ?_⟩
    rw [← UInt8.toNat_inj, UInt8.toNat_ofNat']
    omega
  · simp at h

theorem digit?_ofNat (d : Fin 10) : digit? (UInt8.ofNat (48 + d.val)) = some d.val := by
  revert d; decide

/-- All characters are digits, or one is not. -/
theorem digits_or (s : Bytes) :
    (∃ ds : List (Fin 10), s = ds.map (fun d => UInt8.ofNat (48 + d.val))) ∨
    ∃ c ∈ s, digit? c = none := by
  induction s with
  | nil => exact Or.inl ⟨[], rfl⟩
  | cons c s ih =>
    cases h : digit? c with
    | none => exact Or.inr ⟨c, by simp, h⟩
    | some d =>
      obtain ⟨hd, hc⟩ := digit?_some c d h
      rcases ih with ⟨ds, rfl⟩ | ⟨c', hc', h'⟩
      · exact Or.inl ⟨⟨d, hd⟩ :: ds, by simp [hc]⟩
      · exact Or.inr ⟨c', by simp [hc'], h'⟩

/-- Value of a digit string read from `v` on. -/
def valueFrom (v : Nat) (ds : List (Fin 10)) : Nat := ds.foldl (fun v d => 10 * v + d.val) v

theorem valueFrom_ge (v : Nat) (ds : List (Fin 10)) : v ≤ valueFrom v ds := by
  induction ds generalizing v with
  | nil => exact Nat.le_refl _
  | cons d ds ih =>
    have := ih (10 * v + d.val)
    simp only [valueFrom, List.foldl_cons] at this ⊢
    omega

theorem parsePositive_digits (vmax : Int) (ds : List (Fin 10)) (v : Nat) (hv : (v : Int) ≤ vmax) :
    parsePositive vmax v (ds.map (fun d => UInt8.ofNat (48 + d.val))) =
      if (valueFrom v ds : Int) ≤ vmax then (true, (valueFrom v ds : Int)) else (false, vmax) := by
  induction ds generalizing v with
  | nil => simp [parsePositive, valueFrom, hv]
  | cons d ds ih =>
    have hge := valueFrom_ge (10 * v + d.val) ds
    have he : valueFrom v (d :: ds) = valueFrom (10 * v + d.val) ds := rfl
    have hd := d.isLt
    rw [List.map_cons, parsePositive, digit?_ofNat]
    simp only
    by_cases h1 : (v : Int) > vmax / 10
    · rw [if_pos h1, if_neg]
      rw [he]; omega
    · rw [if_neg h1]
      by_cases h2 : (v : Int) * 10 > vmax - (d.val : Int)
      · rw [if_pos h2, if_neg]
        rw [he]; omega
      · rw [if_neg h2]
        have : (v : Int) * 10 + (d.val : Int) = ((10 * v + d.val : Nat) : Int) := by omega
        rw [this, ih _ (by omega), he]

theorem parsePositive_nondigit (vmax : Int) (s : Bytes) (v : Int) (h : ∃ c ∈ s, digit? c = none) :
    (parsePositive vmax v s).1 = false := by
  induction s generalizing v with
  | nil => obtain ⟨c, hc, _⟩ := h; simp at hc
  | cons c s ih =>
    rw [parsePositive]
    cases hd : digit? c with
    | none => rfl
    | some d =>
      simp only
      split
      · rfl
      · split
        · rfl
        · apply ih
          obtain ⟨c', hc', hn⟩ := h
          rcases List.mem_cons.1 hc' with rfl | hc'
          · rw [hd] at hn; simp at hn
          · exact ⟨c', hc', hn⟩

theorem parseNegative_digits (vmin : Int) (hmin : vmin ≤ 0) (ds : List (Fin 10)) (v : Nat) (hv : vmin ≤ -(v : Int)) :
    parseNegative vmin (-(v : Int)) (ds.map (fun d => UInt8.ofNat (48 + d.val))) =
      if vmin ≤ -(valueFrom v ds : Int) then (true, -(valueFrom v ds : Int)) else (false, vmin) := by
  induction ds generalizing v with
  | nil => simp [parseNegative, valueFrom, hv]
  | cons d ds ih =>
    have hge := valueFrom_ge (10 * v + d.val) ds
    have he : valueFrom v (d :: ds) = valueFrom (10 * v + d.val) ds := rfl
    have hd := d.isLt
    have htd : vmin.tdiv 10 = -((-vmin) / 10) := by
      have := Int.tdiv_eq_ediv_of_nonneg (a := -vmin) (b := 10) (by omega)
      rw [Int.neg_tdiv] at this
      omega
    rw [List.map_cons, parseNegative, digit?_ofNat]
    simp only
    by_cases h1 : -(v : Int) < vmin.tdiv 10
    · rw [if_pos h1, if_neg]
      rw [he]; omega
    · rw [if_neg h1]
      by_cases h2 : -(v : Int) * 10 < vmin + (d.val : Int)
      · rw [if_pos h2, if_neg]
        rw [he]; omega
      · rw [if_neg h2]
        have : -(v : Int) * 10 - (d.val : Int) = -((10 * v + d.val : Nat) : Int) := by omega
        rw [this, ih _ (by omega), he]

theorem parseNegative_nondigit (vmin : Int) (s : Bytes) (v : Int) (h : ∃ c ∈ s, digit? c = none) :
    (parseNegative vmin v s).1 = false := by
  induction s generalizing v with
  | nil => obtain ⟨c, hc, _⟩ := h; simp at hc
  | cons c s ih =>
    rw [parseNegative]
    cases hd : digit? c with
    | none => rfl
    | some d =>
      simp only
      split
      · rfl
      · split
        · rfl
        · apply ih
          obtain ⟨c', hc', hn⟩ := h
          rcases List.mem_cons.1 hc' with rfl | hc'
          · rw [hd] at hn; simp at hn
          · exact ⟨c', hc', hn⟩

/-! ## `SimpleAtoi` -/

theorem digit_not_special (d : Fin 10) : isSpace (UInt8.ofNat (48 + d.val)) = false ∧
    UInt8.ofNat (48 + d.val) ≠ 45 ∧ UInt8.ofNat (48 + d.val) ≠ 43 := by
  revert d; decide

theorem trim_intText (t : IntText) (hv : t.Valid) :
    trim t.bytes = t.sign.bytes ++ t.digits.map (fun d => UInt8.ofNat (48 + d.val)) := by
  have hsp := white_isSpace t.pre hv.pre
  have hsp' := white_isSpace t.post hv.post
  unfold IntText.bytes
  rw [List.append_assoc t.pre]
  have hd : ∀ c ∈ t.digits.map (fun d => UInt8.ofNat (48 + d.val)), isSpace c = false := by
    intro c hc
    obtain ⟨d, _, rfl⟩ := List.mem_map.1 hc
    exact (digit_not_special d).1
  have hdne : t.digits.map (fun d => UInt8.ofNat (48 + d.val)) ≠ [] := by simpa using hv.digits
  have hs : ∀ c ∈ t.sign.bytes, isSpace c = false := by
    intro c hc
    cases hsg : t.sign with
    | none => rw [hsg] at hc; simp [Sign.bytes] at hc
    | plus => rw [hsg] at hc; simp only [Sign.bytes, List.mem_singleton] at hc; subst hc; decide
    | minus => rw [hsg] at hc; simp only [Sign.bytes, List.mem_singleton] at hc; subst hc; decide
  apply trim_eq _ _ _ hsp hsp'
  · intro c hc
    have := List.mem_of_mem_head? hc
    rcases List.mem_append.1 this with h | h
    · exact hs c h
    · exact hd c h
  · intro c hc
    have := List.mem_of_getLast? hc
    rcases List.mem_append.1 this with h | h
    · exact hs c h
    · exact hd c h
  · intro h
    simp only [List.append_eq_nil_iff] at h
    exact hdne h.2

/-- What the parser does with an integer. -/
theorem simpleAtoi_intText (k : IntKind) (t : IntText) (hv : t.Valid) (h0 : 0 ≤ k.max) (h0' : k.min ≤ 0) :
    simpleAtoi k t.bytes =
      if t.sign = .minus then
        if k.signed then
          if k.min ≤ t.value then (true, t.value) else (false, k.min)
        else (false, 0)
      else if t.value ≤ k.max then (true, t.value) else (false, k.max) := by
  rw [simpleAtoi, trim_intText t hv]
  have hne := hv.digits
  obtain ⟨d, ds, hds⟩ := List.exists_cons_of_ne_nil hne
  have hpos := parsePositive_digits k.max t.digits 0 (by simpa using h0)
  have hneg := parseNegative_digits k.min h0' t.digits 0 (by simpa using h0')
  have hvf : valueFrom 0 t.digits = digitsValue t.digits := rfl
  rw [hvf] at hpos hneg
  have hpos' : parsePositive k.max 0 (t.digits.map (fun d => UInt8.ofNat (48 + d.val))) =
      if (digitsValue t.digits : Int) ≤ k.max then (true, (digitsValue t.digits : Int)) else (false, k.max) := hpos
  have hneg' : parseNegative k.min 0 (t.digits.map (fun d => UInt8.ofNat (48 + d.val))) =
      if k.min ≤ -(digitsValue t.digits : Int) then (true, -(digitsValue t.digits : Int)) else (false, k.min) := hneg
  rw [hds, List.map_cons] at hpos' hneg'
  cases hs : t.sign with
  | none =>
    have hval : t.value = (digitsValue t.digits : Int) := by simp [IntText.value, hs]
    simp only [Sign.bytes, List.nil_append]
    rw [hds, List.map_cons]
    simp only [(digit_not_special d).2.1, (digit_not_special d).2.2, if_false, reduceCtorEq]
    rw [hpos', hval, hds]
  | plus =>
    have hval : t.value = (digitsValue t.digits : Int) := by simp [IntText.value, hs]
    simp only [Sign.bytes, List.cons_append, List.nil_append]
    rw [hds, List.map_cons]
    simp only [if_neg (show ¬ ((43 : UInt8) = 45) by decide), if_true, reduceCtorEq, if_false]
    rw [hpos', hval, hds]
  | minus =>
    have hval : t.value = -(digitsValue t.digits : Int) := by simp [IntText.value, hs]
    simp only [Sign.bytes, List.cons_append, List.nil_append]
    rw [hds, List.map_cons]
    simp only [if_true]
    rw [hneg', hval, hds]

/-- What is accepted is an integer. -/
theorem simpleAtoi_true (k : IntKind) (s : Bytes) (v : Int) (h : simpleAtoi k s = (true, v)) :
    ∃ t : IntText, t.Valid ∧ t.bytes = s := by
  obtain ⟨pre, post, hs, hpre, hpost⟩ := trim_split s
  have hpre' : White pre := fun c hc => (isSpace_iff c).1 (hpre c hc)
  have hpost' : White post := fun c hc => (isSpace_iff c).1 (hpost c hc)
  have mk : ∀ (sg : Sign) (cs : Bytes), trim s = sg.bytes ++ cs → cs ≠ [] →
      (¬ ∃ c ∈ cs, digit? c = none) → ∃ t : IntText, t.Valid ∧ t.bytes = s := by
    intro sg cs ht hne hnd
    rcases digits_or cs with ⟨ds, rfl⟩ | hn
    · refine ⟨⟨pre, sg, ds, post⟩, ⟨hpre', ?_, hpost'⟩, ?_⟩
      · rintro rfl; exact hne rfl
      · rw [hs, ht, IntText.bytes]
        simp only [List.append_assoc]
    · exact absurd hn hnd
  unfold simpleAtoi at h
  split at h
  · simp at h
  · rename_i c cs ht
    split at h
    · rename_i hc
      subst hc
      split at h
      · simp at h
      · rename_i x xs
        split at h
        · refine mk .minus (x :: xs) (by rw [ht]; rfl) (by simp) (fun hn => ?_)
          have := parseNegative_nondigit k.min (x :: xs) 0 hn
          rw [h] at this; simp at this
        · simp at h
    · split at h
      · rename_i hc
        subst hc
        split at h
        · simp at h
        · rename_i x xs
          refine mk .plus (x :: xs) (by rw [ht]; rfl) (by simp) (fun hn => ?_)
          have := parsePositive_nondigit k.max (x :: xs) 0 hn
          rw [h] at this; simp at this
      · refine mk .none (c :: cs) (by rw [ht]; rfl) (by simp) (fun hn => ?_)
        have := parsePositive_nondigit k.max (c :: cs) 0 hn
        rw [h] at this; simp at this

/-! ## `try_parse_int` -/

theorem two_pow_pos (n : Nat) : (0 : Int) < 2 ^ n := Int.pow_pos (by decide)

theorem inRange_iff (k : IntKind) (v : Int) : InRange k.signed k.bits v ↔ k.min ≤ v ∧ v ≤ k.max := by
  unfold InRange IntKind.min IntKind.max
  cases k.signed <;> simp <;> omega

theorem IntKind.max_nonneg (k : IntKind) : 0 ≤ k.max := by
  unfold IntKind.max
  have h1 := two_pow_pos (k.bits - 1)
  have h2 := two_pow_pos k.bits
  split <;> omega

theorem IntKind.min_nonpos (k : IntKind) : k.min ≤ 0 := by
  unfold IntKind.min
  have h1 := two_pow_pos (k.bits - 1)
  split <;> omega

theorem value_nonneg (t : IntText) (h : t.sign ≠ .minus) : 0 ≤ t.value := by
  simp [IntText.value, h]

theorem value_nonpos (t : IntText) (h : t.sign = .minus) : t.value ≤ 0 := by
  simp [IntText.value, h]

theorem parseWide_intText (k : IntKind) (t : IntText) (hv : t.Valid) :
    parseWide k t.bytes =
      if InRange k.signed k.bits t.value ∧ (k.signed = false → t.sign ≠ .minus) then .ok t.value
      else .overflowed := by
  have h0 := k.max_nonneg
  have h0' := k.min_nonpos
  rw [parseWide, simpleAtoi_intText k t hv h0 h0']
  by_cases hs : t.sign = .minus
  · have hval := value_nonpos t hs
    rw [if_pos hs]
    cases hk : k.signed with
    | true =>
      rw [if_pos rfl]
      by_cases hr : k.min ≤ t.value
      · rw [if_pos hr, if_pos]
        · refine ⟨?_, by simp⟩
          rw [← hk]; exact (inRange_iff k _).2 ⟨hr, by omega⟩
      · rw [if_neg hr, if_neg]
        · simp
        · rintro ⟨h, _⟩
          rw [← hk] at h
          exact hr ((inRange_iff k _).1 h).1
    | false =>
      have : k.min = 0 := by simp [IntKind.min, hk]
      rw [if_neg (by simp), if_neg]
      · simp [this]
      · simp [hs]
  · have hval := value_nonneg t hs
    rw [if_neg hs]
    by_cases hr : t.value ≤ k.max
    · rw [if_pos hr, if_pos]
      exact ⟨(inRange_iff k _).2 ⟨by omega, hr⟩, fun _ => hs⟩
    · rw [if_neg hr, if_neg]
      · simp
      · rintro ⟨h, _⟩
        exact hr ((inRange_iff k _).1 h).2

theorem parseWide_ok (k : IntKind) (s : Bytes) (v : Int) (h : parseWide k s = .ok v) :
    ∃ t : IntText, t.Valid ∧ t.bytes = s := by
  unfold parseWide at h
  split at h
  · rename_i v' hs; exact simpleAtoi_true k s v' hs
  · split at h <;> simp at h

theorem two_pow_mono (a b : Nat) (h : a ≤ b) : (2 : Int) ^ a ≤ 2 ^ b := by
  have : (2 : Nat) ^ a ≤ 2 ^ b := Nat.pow_le_pow_right (by decide) h
  exact_mod_cast this

theorem narrow_range (k : IntKind) (hb : ¬ 32 ≤ k.bits) (v : Int) (h : InRange k.signed k.bits v) :
    InRange k.signed 32 v := by
  have h1 := two_pow_mono (k.bits - 1) 31 (by omega)
  have h2 := two_pow_mono k.bits 32 (by omega)
  unfold InRange at h ⊢
  cases hk : k.signed <;> simp only [hk, Bool.false_eq_true, if_false, if_true] at h ⊢ <;> omega

theorem tryParseInt_intText (k : IntKind) (t : IntText) (hv : t.Valid) :
    tryParseInt k t.bytes =
      if InRange k.signed k.bits t.value ∧ (k.signed = false → t.sign ≠ .minus) then .ok t.value
      else .overflowed := by
  unfold tryParseInt
  split
  · exact parseWide_intText k t hv
  · rename_i hb
    rw [parseWide_intText ⟨k.signed, 32⟩ t hv]
    by_cases h1 : InRange k.signed 32 t.value ∧ (k.signed = false → t.sign ≠ .minus)
    · rw [if_pos h1]
      simp only
      by_cases h2 : InRange k.signed k.bits t.value
      · have := (inRange_iff k _).1 h2
        rw [if_neg (by omega), if_pos ⟨h2, h1.2⟩]
      · have h2' := h2
        rw [inRange_iff] at h2'
        rw [if_pos (by omega), if_neg (fun h => h2 h.1)]
    · rw [if_neg h1, if_neg]
      rintro ⟨h2, h3⟩
      exact h1 ⟨narrow_range k hb _ h2, h3⟩

theorem tryParseInt_ok (k : IntKind) (s : Bytes) (v : Int) (h : tryParseInt k s = .ok v) :
    ∃ t : IntText, t.Valid ∧ t.bytes = s := by
  unfold tryParseInt at h
  split at h
  · exact parseWide_ok k s v h
  · split at h
    · rename_i v' hw
      exact parseWide_ok _ s v' hw
    · rename_i hw
      exact absurd h (hw v)

end Mlio
