import Verif.Proofs.Natsort

namespace Mlio
open Spec

/-! ## The ordering -/

theorem natLess_strictWeak (signed : Bool) : StrictWeak (natLess signed) := by
  have hiff : ∀ a b, natLess signed a b = true ↔ lexCmp (natKey signed (cstr a)) (natKey signed (cstr b)) < 0 := by
    intro a b; simp [natLess, strnatcmp_key]
  have hno : ∀ a b, natLess signed a b = false ↔ ¬ lexCmp (natKey signed (cstr a)) (natKey signed (cstr b)) < 0 := by
    intro a b; rw [← hiff]; simp
  constructor
  · intro a; rw [hno, lexCmp_self]; decide
  · intro a b c h1 h2
    rw [hiff] at *
    exact lexCmp_trans _ _ _ h1 h2
  · intro a b c h1 h2 h3 h4
    rw [hno] at *
    rw [lexCmp_swap] at h2 h4
    have e1 := lexCmp_eq _ _ (show lexCmp (natKey signed (cstr a)) (natKey signed (cstr b)) = 0 by omega)
    have e2 := lexCmp_eq _ _ (show lexCmp (natKey signed (cstr b)) (natKey signed (cstr c)) = 0 by omega)
    rw [hno, e1, e2, lexCmp_self]
    exact ⟨by decide, by decide⟩

/-! ### Numbers in names -/

theorem dropWhile_append_none (p : UInt8 → Bool) : ∀ (l s : Bytes), l.dropWhile p = [] → (l ++ s).dropWhile p = s.dropWhile p
  | [], _, _ => rfl
  | c :: l, s, h => by
    simp only [List.dropWhile] at h
    split at h
    · rename_i hc
      simp only [List.cons_append, List.dropWhile, hc]
      exact dropWhile_append_none p l s h
    · cases h

theorem dropWhile_append_some (p : UInt8 → Bool) : ∀ (l s : Bytes) (c : UInt8) (r : Bytes), l.dropWhile p = c :: r →
    (l ++ s).dropWhile p = c :: (r ++ s) ∧ (l ++ s).takeWhile p = l.takeWhile p
  | [], _, _, _, h => by simp at h
  | d :: l, s, c, r, h => by
    simp only [List.dropWhile] at h
    simp only [List.cons_append, List.dropWhile, List.takeWhile]
    split at h
    · rename_i hc
      have := dropWhile_append_some p l s c r h
      rw [this.2]
      exact ⟨by rw [this.1], rfl⟩
    · rename_i hc
      simp only [List.cons.injEq] at h
      obtain ⟨rfl, rfl⟩ := h
      exact ⟨rfl, rfl⟩

theorem digit_iff (c : UInt8) : natDigit c = true ↔ 48 ≤ c.toNat ∧ c.toNat ≤ 57 := by simp [natDigit]

theorem getLast?_suffix {l m : Bytes} (hs : m <:+ l) (hm : m ≠ []) : m.getLast? = l.getLast? := by
  obtain ⟨t, rfl⟩ := hs
  rw [List.getLast?_append]
  rcases h : m.getLast? with _ | x
  · exact absurd (List.getLast?_eq_none_iff.1 h) hm
  · rfl

/-- What comes before a number contributes the same to all names. -/
theorem natKey_prefix (signed : Bool) : ∀ (n : Nat) (p : Bytes), p.length < n → NoDigitAtEnd p →
    ∃ K, ∀ (c : UInt8) (s : Bytes), natDigit c = true → natKey signed (p ++ c :: s) = K ++ natKey signed (c :: s)
  | 0, _, h, _ => by omega
  | n + 1, p, hl, he => by
    have hla := (List.dropWhile_sublist natSpace (l := p)).length_le
    have hsuf : p.dropWhile natSpace <:+ p := List.dropWhile_suffix _
    rcases hd : p.dropWhile natSpace with _ | ⟨d, r⟩
    · refine ⟨[], fun c s hc => ?_⟩
      have h1 : (p ++ c :: s).dropWhile natSpace = c :: s := by
        rw [dropWhile_append_none _ _ _ hd, dropWhile_digit _ hc]
      rw [natKey_cons signed _ _ _ h1, List.nil_append, natKey_cons signed _ _ _ (dropWhile_digit s hc)]
    · rw [hd] at hla hsuf
      simp only [List.length_cons] at hla
      have hlast : ∀ m : Bytes, m <:+ r → NoDigitAtEnd m := by
        intro m hm c hc
        have hm0 : m ≠ [] := by rintro rfl; simp at hc
        refine he c ?_
        rw [← getLast?_suffix (hm.trans ((List.suffix_cons d r).trans hsuf)) hm0, hc]
      cases hdig : natDigit d with
      | false =>
        obtain ⟨K, hK⟩ := natKey_prefix signed n r (by omega) (hlast r (List.suffix_refl r))
        refine ⟨charVal signed d :: K, fun c s hc => ?_⟩
        rw [natKey_cons signed _ _ _ (dropWhile_append_some _ _ _ _ _ hd).1]
        simp only [hdig, Bool.false_eq_true, if_false, hK c s hc, List.cons_append]
      | true =>
        -- the run of digits ends within the prefix
        rcases hdr : r.dropWhile natDigit with _ | ⟨e, q⟩
        · exfalso
          have hne : (d :: r) ≠ [] := by simp
          have hall : ∀ c ∈ d :: r, natDigit c = true := by
            intro c hc
            simp only [List.mem_cons] at hc
            rcases hc with rfl | hc
            · exact hdig
            · have : r = r.takeWhile natDigit := by
                have := List.takeWhile_append_dropWhile (p := natDigit) (l := r)
                rw [hdr, List.append_nil] at this
                exact this.symm
              rw [this] at hc
              exact takeWhile_digits r c hc
          have hg : p.getLast? = some ((d :: r).getLast hne) := by
            rw [← getLast?_suffix hsuf hne, List.getLast?_eq_some_getLast hne]
          exact he _ hg ((digit_iff _).1 (hall _ (List.getLast_mem hne)))
        · have hsuf2 : r.dropWhile natDigit <:+ r := List.dropWhile_suffix _
          have hl2 := (List.dropWhile_sublist natDigit (l := r)).length_le
          obtain ⟨K, hK⟩ := natKey_prefix signed n (r.dropWhile natDigit) (by omega) (hlast _ hsuf2)
          refine ⟨runKey (d :: r.takeWhile natDigit) ++ K, fun c s hc => ?_⟩
          rw [natKey_cons signed _ _ _ (dropWhile_append_some _ _ _ _ _ hd).1]
          obtain ⟨h1, h2⟩ := dropWhile_append_some natDigit r (c :: s) e q hdr
          have h1' : (r ++ c :: s).dropWhile natDigit = r.dropWhile natDigit ++ c :: s := by rw [h1, hdr]; rfl
          simp only [hdig, if_true, h2, h1', hK c s hc, List.append_assoc]

theorem takeWhile_run (x r : Bytes) (hx : AllDigits x) (hr : NoDigitHead r) :
    (x ++ r).takeWhile natDigit = x ∧ (x ++ r).dropWhile natDigit = r := by
  induction x with
  | nil =>
    rcases r with _ | ⟨c, r⟩
    · exact ⟨rfl, rfl⟩
    · simp [List.takeWhile, List.dropWhile, hr c rfl]
  | cons c x ih =>
    have := ih (fun z hz => hx z (by simp [hz]))
    simp [hx c (by simp), this.1, this.2]

theorem natKey_run (signed : Bool) (x r : Bytes) (hx : AllDigits x) (h0 : x ≠ []) (hr : NoDigitHead r) :
    natKey signed (x ++ r) = runKey x ++ natKey signed r := by
  rcases x with _ | ⟨c, x⟩
  · exact absurd rfl h0
  have hc := hx c (by simp)
  obtain ⟨h1, h2⟩ := takeWhile_run x r (fun z hz => hx z (by simp [hz])) hr
  rw [List.cons_append, natKey_cons signed _ _ _ (dropWhile_digit _ hc), h1, h2, if_pos hc]

theorem decimal_acc : ∀ (ds : Bytes) (n : Nat),
    ds.foldl (fun n d => n * 10 + (d.toNat - 48)) n = n * 10 ^ ds.length + decimal ds
  | [], n => by simp [decimal]
  | d :: ds, n => by
    simp only [List.foldl_cons, List.length_cons, decimal]
    rw [decimal_acc ds, decimal_acc ds (0 * 10 + _), Nat.pow_succ]
    rw [Nat.add_mul, Nat.zero_mul, Nat.zero_add, Nat.mul_assoc, Nat.mul_comm 10, Nat.add_assoc]

theorem decimal_cons (d : UInt8) (ds : Bytes) : decimal (d :: ds) = (d.toNat - 48) * 10 ^ ds.length + decimal ds := by
  have := decimal_acc ds (0 * 10 + (d.toNat - 48))
  simpa [decimal] using this

theorem decimal_lt : ∀ (ds : Bytes), AllDigits ds → decimal ds < 10 ^ ds.length
  | [], _ => by simp [decimal]
  | d :: ds, h => by
    have hd := (digit_iff d).1 (h d (by simp))
    have ih := decimal_lt ds (fun z hz => h z (by simp [hz]))
    rw [decimal_cons, List.length_cons, Nat.pow_succ]
    have : (d.toNat - 48) * 10 ^ ds.length ≤ 9 * 10 ^ ds.length := Nat.mul_le_mul_right _ (by omega)
    omega

theorem decimal_ge (d : UInt8) (ds : Bytes) (hd : natDigit d = true) (h0 : d ≠ 48) : 10 ^ ds.length ≤ decimal (d :: ds) := by
  have hn := (digit_iff d).1 hd
  have : d.toNat ≠ 48 := fun h => h0 (UInt8.toNat_inj.1 h)
  rw [decimal_cons]
  have : 1 * 10 ^ ds.length ≤ (d.toNat - 48) * 10 ^ ds.length := Nat.mul_le_mul_right _ (by omega)
  omega

theorem decimal_lex : ∀ (x y : Bytes) (K L : List Int), AllDigits x → AllDigits y → x.length = y.length →
    decimal x < decimal y →
    lexCmp (x.map (fun c => (c.toNat : Int)) ++ K) (y.map (fun c => (c.toNat : Int)) ++ L) < 0
  | [], [], _, _, _, _, _, h => by simp at h
  | [], _ :: _, _, _, _, _, h, _ => by simp at h
  | _ :: _, [], _, _, _, _, h, _ => by simp at h
  | c :: x, d :: y, K, L, hx, hy, hl, h => by
    have hl' : x.length = y.length := by simpa using hl
    have hc := (digit_iff c).1 (hx c (by simp))
    have hd := (digit_iff d).1 (hy d (by simp))
    have bx := decimal_lt x (fun z hz => hx z (by simp [hz]))
    have byy := decimal_lt y (fun z hz => hy z (by simp [hz]))
    rw [decimal_cons, decimal_cons, hl'] at h
    simp only [List.map_cons, List.cons_append, lexCmp]
    rcases Nat.lt_trichotomy c.toNat d.toNat with hcd | hcd | hcd
    · rw [if_pos (by omega)]; decide
    · rw [if_neg (by omega), if_neg (by omega)]
      rw [hcd] at h
      exact decimal_lex x y K L (fun z hz => hx z (by simp [hz])) (fun z hz => hy z (by simp [hz])) hl' (by omega)
    · exfalso
      have : (d.toNat - 48 + 1) * 10 ^ y.length ≤ (c.toNat - 48) * 10 ^ y.length := Nat.mul_le_mul_right _ (by omega)
      rw [Nat.add_mul] at this
      omega

theorem runKey_number (x y : Bytes) (K L : List Int) (hx : PlainNumber x) (hy : PlainNumber y)
    (h : decimal x < decimal y) : lexCmp (runKey x ++ K) (runKey y ++ L) < 0 := by
  have dx : AllDigits x := fun c hc => (digit_iff c).2 (hx.2.1 c hc)
  have dy : AllDigits y := fun c hc => (digit_iff c).2 (hy.2.1 c hc)
  unfold runKey
  rw [if_neg hx.2.2, if_neg hy.2.2]
  simp only [List.cons_append, lexCmp, gt_iff_lt, Int.lt_irrefl, if_false]
  rcases Nat.lt_trichotomy x.length y.length with hl | hl | hl
  · rw [if_pos (by omega)]; decide
  · rw [hl, if_neg (Int.lt_irrefl _), if_neg (Int.lt_irrefl _)]
    exact decimal_lex x y K L dx dy hl h
  · exfalso
    have h1 := decimal_lt y dy
    rcases x with _ | ⟨c, x⟩
    · simp at hl
    have h2 := decimal_ge c x (dx c (by simp)) (fun h => hx.2.2 (by simp [h]))
    have : 10 ^ y.length ≤ 10 ^ x.length := Nat.pow_le_pow_right (by decide) (by simp only [List.length_cons] at hl; omega)
    omega

theorem cstr_append (p s : Bytes) (h : (0 : UInt8) ∉ p) : cstr (p ++ s) = p ++ cstr s := by
  induction p with
  | nil => rfl
  | cons c p ih =>
    simp only [List.mem_cons, not_or] at h
    have hc : c ≠ 0 := fun e => h.1 e.symm
    simp only [cstr, List.cons_append, List.takeWhile]
    rw [show (decide (c ≠ 0)) = true by simpa using hc]
    simp only [cstr] at ih
    simp only [ih h.2]

theorem cstr_noDigit (s : Bytes) (h : NoDigitAtStart s) : NoDigitHead (cstr s) := by
  intro c hc
  rcases s with _ | ⟨d, s⟩
  · simp [cstr] at hc
  · simp only [cstr, List.takeWhile] at hc
    split at hc
    · simp only [List.head?_cons, Option.some.injEq] at hc
      subst hc
      have := h d rfl
      rw [← digit_iff] at this
      simpa using this
    · simp at hc

theorem number_order (signed : Bool) (p x y r s : Bytes) (hx : PlainNumber x) (hy : PlainNumber y)
    (hp : NoDigitAtEnd p) (hp0 : (0 : UInt8) ∉ p) (hr : NoDigitAtStart r) (hs : NoDigitAtStart s)
    (h : decimal x < decimal y) : strnatcmp signed (p ++ x ++ r) (p ++ y ++ s) < 0 := by
  have dx : AllDigits x := fun c hc => (digit_iff c).2 (hx.2.1 c hc)
  have dy : AllDigits y := fun c hc => (digit_iff c).2 (hy.2.1 c hc)
  have z : ∀ w : Bytes, AllDigits w → (0 : UInt8) ∉ w := fun w hw h0 => by
    have := hw 0 h0; simp [natDigit] at this
  have e : ∀ (w t : Bytes), AllDigits w → cstr (p ++ w ++ t) = p ++ (w ++ cstr t) := fun w t hw => by
    rw [List.append_assoc, cstr_append p _ hp0, cstr_append w _ (z w hw)]
  obtain ⟨K, hK⟩ := natKey_prefix signed (p.length + 1) p (by omega) hp
  have k : ∀ (w t : Bytes), PlainNumber w → AllDigits w → NoDigitAtStart t →
      natKey signed (p ++ (w ++ cstr t)) = K ++ (runKey w ++ natKey signed (cstr t)) := by
    intro w t hw dw ht
    rw [← natKey_run signed w _ dw hw.1 (cstr_noDigit t ht)]
    rcases w with _ | ⟨c, w⟩
    · exact absurd rfl hw.1
    · rw [List.cons_append, hK c _ (dw c (by simp))]
  rw [strnatcmp_key, e x r dx, e y s dy, k x r hx dx hr, k y s hy dy hs, lexCmp_append]
  exact runKey_number x y _ _ hx hy h

/-! ## Listing -/

/-! ### Words and blanks in names -/

theorem white_iff (c : UInt8) : natSpace c = true ↔ NameBlank c := by
  have h : ∀ n : Fin 256, natSpace (UInt8.ofNat n) = true ↔ UInt8.ofNat n ∈ ([32, 9, 10, 11, 12, 13] : Bytes) := by decide +kernel
  have := h ⟨c.toNat, c.toNat_lt⟩
  simpa [NameBlank] using this

theorem charVal_value (signed : Bool) (c : UInt8) : charVal signed c = charValue signed c := by
  have h : ∀ n : Fin 256, ∀ signed : Bool, charVal signed (UInt8.ofNat n) = charValue signed (UInt8.ofNat n) := by decide +kernel
  have := h ⟨c.toNat, c.toNat_lt⟩ signed
  simpa using this

theorem charValue_inj (signed : Bool) (c d : UInt8) (h : charValue signed c = charValue signed d) : c = d := by
  cases signed with
  | false =>
    have h : (c.toNat : Int) = d.toNat := h
    exact UInt8.toNat_inj.1 (by omega)
  | true =>
    simp only [charValue, if_true, Int8.toInt_inj] at h
    have := congrArg Int8.toUInt8 h
    simpa using this

/-- NameBlank space is left out of keys. -/
theorem natKey_white (signed : Bool) (ws r : Bytes) (h : ∀ c ∈ ws, natSpace c = true) : natKey signed (ws ++ r) = natKey signed r := by
  have hd : (ws ++ r).dropWhile natSpace = r.dropWhile natSpace := by
    induction ws with
    | nil => rfl
    | cons c ws ih =>
      rw [List.cons_append, List.dropWhile, h c (by simp)]
      exact ih fun d hd => h d (by simp [hd])
  cases hr : r.dropWhile natSpace with
  | nil => rw [natKey_nil _ _ (hd.trans hr), natKey_nil _ _ hr]
  | cons c q => rw [natKey_cons _ _ _ _ (hd.trans hr), natKey_cons _ _ _ _ hr]

/-- NameBlank space that does not split a number makes no difference. -/
theorem natKey_blanks (signed : Bool) (ws r : Bytes) (hws : ∀ c ∈ ws, natSpace c = true) : ∀ (n : Nat) (p : Bytes), p.length < n →
    (NoDigitAtEnd p ∨ NoDigitAtStart r) → natKey signed (p ++ (ws ++ r)) = natKey signed (p ++ r)
  | 0, _, h, _ => by omega
  | n + 1, p, hl, he => by
    have hla := (List.dropWhile_sublist natSpace (l := p)).length_le
    have hsuf : p.dropWhile natSpace <:+ p := List.dropWhile_suffix _
    have hpre : ∀ m : Bytes, m <:+ p → NoDigitAtEnd m ∨ NoDigitAtStart r := by
      intro m hm
      refine he.imp_left fun he c hc => he c ?_
      have hm0 : m ≠ [] := by rintro rfl; simp at hc
      rw [← getLast?_suffix hm hm0, hc]
    rcases hd : p.dropWhile natSpace with _ | ⟨d, q⟩
    · have hp : ∀ c ∈ p, natSpace c = true := by
        intro c hc
        have h1 := List.takeWhile_append_dropWhile (p := natSpace) (l := p)
        rw [hd, List.append_nil] at h1
        rw [← h1] at hc
        clear h1
        generalize p = l at hc
        induction l with
        | nil => cases hc
        | cons x l ih =>
          rw [List.takeWhile_cons] at hc
          split at hc
          · rcases List.mem_cons.1 hc with rfl | hc
            · assumption
            · exact ih hc
          · cases hc
      rw [natKey_white signed p _ hp, natKey_white signed p _ hp, natKey_white signed ws _ hws]
    · rw [hd] at hla hsuf
      simp only [List.length_cons] at hla
      have hq : q <:+ p := (List.suffix_cons d q).trans hsuf
      rw [natKey_cons signed _ _ _ (dropWhile_append_some _ _ _ _ _ hd).1, natKey_cons signed _ _ _ (dropWhile_append_some _ _ _ _ _ hd).1]
      cases hdig : natDigit d with
      | false =>
        simp only [Bool.false_eq_true, if_false]
        rw [natKey_blanks signed ws r hws n q (by omega) (hpre q hq)]
      | true =>
        simp only [if_true]
        rcases hdr : q.dropWhile natDigit with _ | ⟨e, q'⟩
        · have hall : AllDigits q := by
            intro c hc
            have h1 := List.takeWhile_append_dropWhile (p := natDigit) (l := q)
            rw [hdr, List.append_nil] at h1
            rw [← h1] at hc
            exact takeWhile_digits q c hc
          have hr : NoDigitHead r := by
            rcases he with he | he
            · exfalso
              have hne : (d :: q) ≠ [] := by simp
              have hg : p.getLast? = some ((d :: q).getLast hne) := by
                rw [← getLast?_suffix hsuf hne, List.getLast?_eq_some_getLast hne]
              refine he _ hg ((digit_iff _).1 ?_)
              have := List.getLast_mem hne
              simp only [List.mem_cons] at this
              rcases this with h | h
              · rw [h]; exact hdig
              · exact hall _ h
            · intro c hc
              cases h : natDigit c with
              | false => rfl
              | true => exact absurd ((digit_iff c).1 h) (he c hc)
          have hwr : NoDigitHead (ws ++ r) := by
            cases ws with
            | nil => exact hr
            | cons c ws =>
              intro x hx
              simp only [List.cons_append, List.head?_cons, Option.some.injEq] at hx
              subst hx
              have h1 := (white_iff c).1 (hws c (by simp))
              simp only [NameBlank, List.mem_cons, List.not_mem_nil, or_false] at h1
              rcases h1 with rfl | rfl | rfl | rfl | rfl | rfl <;> rfl
          obtain ⟨t1, d1⟩ := takeWhile_run q r hall hr
          obtain ⟨t2, d2⟩ := takeWhile_run q (ws ++ r) hall hwr
          rw [t1, d1, t2, d2, natKey_white signed ws r hws]
        · have hsuf2 : q.dropWhile natDigit <:+ q := List.dropWhile_suffix _
          have hl2 := (List.dropWhile_sublist natDigit (l := q)).length_le
          obtain ⟨h1, h2⟩ := dropWhile_append_some natDigit q (ws ++ r) e q' hdr
          obtain ⟨h3, h4⟩ := dropWhile_append_some natDigit q r e q' hdr
          have ih := natKey_blanks signed ws r hws n (q.dropWhile natDigit) (by omega) (hpre _ (hsuf2.trans hq))
          rw [hdr] at ih
          rw [h1, h2, h3, h4]
          exact congrArg _ ih

theorem natKey_wordy (signed : Bool) : ∀ s : Bytes, Wordy s → natKey signed s = (s ++ [0]).map (charValue signed)
  | [], _ => by cases signed <;> (rw [natKey_nil _ _ rfl]; rfl)
  | c :: s, h => by
    obtain ⟨h1, h2, _⟩ := h c (by simp)
    have hs : natSpace c = false := by
      cases hc : natSpace c with
      | false => rfl
      | true => exact absurd ((white_iff c).1 hc) h2
    have hd : natDigit c = false := by
      cases hc : natDigit c with
      | false => rfl
      | true => exact absurd ((digit_iff c).1 hc) h1
    rw [natKey_cons signed _ c s (by rw [List.dropWhile, hs]), hd, natKey_wordy signed s fun d hd => h d (by simp [hd]), charVal_value]
    rfl

theorem cstr_wordy {s : Bytes} (h : Wordy s) : cstr s = s := by
  have := cstr_append s [] (fun h0 => (h 0 h0).2.2 rfl)
  simpa [cstr] using this

theorem lexCmp_map (f : UInt8 → Int) (hf : ∀ c d, f c = f d → c = d) : ∀ a b : Bytes, a.length ≠ 0 → b.length ≠ 0 →
    (∀ a' b', a = a' ++ [0] → b = b' ++ [0] → (0 : UInt8) ∉ a' → (0 : UInt8) ∉ b' →
      (lexCmp (a.map f) (b.map f) < 0 ↔ ∃ p x y s t, a = p ++ x :: s ∧ b = p ++ y :: t ∧ f x < f y))
  | [], _, h, _ => absurd rfl h
  | _ :: _, [], _, h => absurd rfl h
  | c :: a, d :: b, _, _ => by
    intro a' b' ha hb na nb
    simp only [List.map_cons, lexCmp]
    by_cases h1 : f c < f d
    · rw [if_pos h1]
      exact ⟨fun _ => ⟨[], c, d, a, b, rfl, rfl, h1⟩, fun _ => by decide⟩
    · rw [if_neg h1]
      by_cases h2 : f c > f d
      · rw [if_pos h2]
        refine ⟨fun h => absurd h (by decide), ?_⟩
        rintro ⟨p, x, y, s, t, e1, e2, e3⟩
        cases p with
        | nil =>
          simp only [List.nil_append, List.cons.injEq] at e1 e2
          rw [← e1.1, ← e2.1] at e3
          omega
        | cons z p =>
          simp only [List.cons_append, List.cons.injEq] at e1 e2
          rw [e1.1, e2.1] at h2
          omega
      · rw [if_neg h2]
        have hcd : c = d := hf c d (by omega)
        subst hcd
        have step : (∃ p x y s t, c :: a = p ++ x :: s ∧ c :: b = p ++ y :: t ∧ f x < f y) ↔
            ∃ p x y s t, a = p ++ x :: s ∧ b = p ++ y :: t ∧ f x < f y := by
          constructor
          · rintro ⟨p, x, y, s, t, e1, e2, e3⟩
            cases p with
            | nil =>
              simp only [List.nil_append, List.cons.injEq] at e1 e2
              rw [← e1.1, ← e2.1] at e3
              omega
            | cons z p =>
              simp only [List.cons_append, List.cons.injEq] at e1 e2
              exact ⟨p, x, y, s, t, e1.2, e2.2, e3⟩
          · rintro ⟨p, x, y, s, t, rfl, rfl, e3⟩
            exact ⟨c :: p, x, y, s, t, rfl, rfl, e3⟩
        rw [step]
        -- either both end here or neither
        cases a' with
        | nil =>
          simp only [List.nil_append, List.cons.injEq] at ha
          obtain ⟨rfl, rfl⟩ := ha
          cases b' with
          | nil =>
            simp only [List.nil_append, List.cons.injEq] at hb
            obtain ⟨_, rfl⟩ := hb
            simp [lexCmp]
          | cons z b' =>
            simp only [List.cons_append, List.cons.injEq] at hb
            exact absurd (by simp [← hb.1]) nb
        | cons z a' =>
          simp only [List.cons_append, List.cons.injEq] at ha
          obtain ⟨rfl, rfl⟩ := ha
          cases b' with
          | nil =>
            simp only [List.nil_append, List.cons.injEq] at hb
            obtain ⟨rfl, _⟩ := hb
            exact absurd (by simp) na
          | cons z' b' =>
            simp only [List.cons_append, List.cons.injEq] at hb
            obtain ⟨_, rfl⟩ := hb
            exact lexCmp_map f hf (a' ++ [0]) (b' ++ [0]) (by simp) (by simp) a' b' rfl rfl (fun h => na (by simp [h])) (fun h => nb (by simp [h]))

theorem listObjects_pages {T : Type} (server : Option T → List Bytes × Option T) (base : Bytes) (tok : Option T)
    (ps : List (List Bytes)) (h : Pages server tok ps) : ∀ (fuel : Nat), ps.length ≤ fuel →
    listObjects server base fuel tok = .ok (ps.flatten.map (base ++ ·)) := by
  induction h with
  | last tok keys h =>
    intro fuel hf
    rcases fuel with _ | fuel
    · simp at hf
    · simp [listObjects, h]
  | more tok keys t ps h _ ih =>
    intro fuel hf
    rcases fuel with _ | fuel
    · simp at hf
    · simp only [List.length_cons] at hf
      simp only [listObjects, h]
      rw [ih fuel (by omega)]
      simp

theorem wanted_ok (pattern : Option (Bytes → Option Bool)) (predicate : Option (Bytes → Bool)) (u : Bytes)
    (h : ∀ f, pattern = some f → f u ≠ none) : wanted pattern predicate u = .ok (Passes pattern predicate u) := by
  rcases pattern with _ | f
  · rcases predicate with _ | p <;> simp [wanted, Passes]
  · have := h f rfl
    rcases hf : f u with _ | b
    · exact absurd hf this
    · rcases b <;> rcases predicate with _ | p <;> simp [wanted, Passes, hf]

theorem keepWanted_ok (pattern : Option (Bytes → Option Bool)) (predicate : Option (Bytes → Bool)) :
    ∀ (us : List Bytes), (∀ u ∈ us, ∀ f, pattern = some f → f u ≠ none) →
    keepWanted pattern predicate us = .ok (us.filter (Passes pattern predicate))
  | [], _ => rfl
  | u :: us, h => by
    simp only [keepWanted, wanted_ok pattern predicate u (h u (by simp)),
      keepWanted_ok pattern predicate us (fun v hv => h v (by simp [hv])), List.filter_cons]

theorem listS3_go_ok {T : Type} (server : Bytes → Bytes → Option T → List Bytes × Option T) (fuel : Nat)
    (pattern : Option (Bytes → Option Bool)) (predicate : Option (Bytes → Bool)) (pages : Bytes → Bytes → List (List Bytes))
    (hpat : ∀ u f, pattern = some f → f u ≠ none) :
    ∀ (parts : List (Bytes × Bytes × Bytes)),
    (∀ q ∈ parts, splitPrefix q.1 = .ok (q.2.1, q.2.2) ∧ Pages (server q.2.1 q.2.2) none (pages q.2.1 q.2.2) ∧
      (pages q.2.1 q.2.2).length ≤ fuel) →
    listS3.go server fuel pattern predicate (parts.map (·.1)) = .ok (parts.flatMap fun q =>
      ((pages q.2.1 q.2.2).flatten.map (s3Scheme ++ q.2.1 ++ [47] ++ ·)).filter (Passes pattern predicate))
  | [], _ => rfl
  | q :: parts, h => by
    obtain ⟨h1, h2, h3⟩ := h q (by simp)
    have ih := listS3_go_ok server fuel pattern predicate pages hpat parts (fun p hp => h p (by simp [hp]))
    simp only [List.map_cons, listS3.go, h1, listObjects_pages _ _ _ _ h2 fuel h3,
      keepWanted_ok pattern predicate _ (fun u _ => hpat u), ih, List.flatMap_cons]

/-- The regular files among the entries. -/
def regular (es : List FtsEntry) : List Bytes := es.filterMap fun
  | .file p => some p
  | _ => none

theorem listFiles_ok (pattern : Option (Bytes → Option Bool)) (predicate : Option (Bytes → Bool))
    (hpat : ∀ u f, pattern = some f → f u ≠ none) : ∀ (es : List FtsEntry), FtsEntry.error ∉ es →
    listFiles pattern predicate es = .ok ((regular es).filter (Passes pattern predicate))
  | [], _ => rfl
  | .error :: es, h => absurd (by simp) h
  | .other p :: es, h => by
    simp only [listFiles]
    rw [listFiles_ok pattern predicate hpat es (fun h' => h (by simp [h']))]
    rfl
  | .file p :: es, h => by
    simp only [listFiles, wanted_ok pattern predicate p (hpat p)]
    rw [listFiles_ok pattern predicate hpat es (fun h' => h (by simp [h']))]
    simp only [regular, List.filterMap_cons, List.filter_cons]

theorem listFiles_error (pattern : Option (Bytes → Option Bool)) (predicate : Option (Bytes → Bool))
    (hpat : ∀ u f, pattern = some f → f u ≠ none) : ∀ (es : List FtsEntry), FtsEntry.error ∈ es →
    listFiles pattern predicate es = .err .systemError
  | .error :: es, _ => rfl
  | .other p :: es, h => by
    simp only [listFiles]
    exact listFiles_error pattern predicate hpat es (by simpa using h)
  | .file p :: es, h => by
    simp only [listFiles, wanted_ok pattern predicate p (hpat p)]
    rw [listFiles_error pattern predicate hpat es (by simpa using h)]

/-! ## URIs -/

theorem findIdx_slash : ∀ (u : Bytes),
    (u.findIdx? (· == 47) = none → (47 : UInt8) ∉ u) ∧
    (∀ i, u.findIdx? (· == 47) = some i → (47 : UInt8) ∉ u.take i ∧ u = u.take i ++ 47 :: u.drop (i + 1) ∧
      (u.take i).length = i)
  | [] => by simp
  | c :: u => by
    obtain ⟨h1, h2⟩ := findIdx_slash u
    rw [List.findIdx?_cons]
    by_cases hc : c = 47
    · subst hc
      constructor
      · intro h; simp at h
      · intro i hi
        simp at hi
        subst hi
        simp
    · rw [if_neg (by simpa using hc)]
      constructor
      · intro h
        simp only [Option.map_eq_none_iff] at h
        simp only [List.mem_cons, not_or]
        exact ⟨fun e => hc e.symm, h1 h⟩
      · intro i hi
        rcases hf : u.findIdx? (· == 47) with _ | j
        · rw [hf] at hi; simp at hi
        · rw [hf] at hi
          simp only [Option.map_some, Option.some.injEq] at hi
          subst hi
          obtain ⟨g1, g2, g3⟩ := h2 j hf
          refine ⟨?_, ?_, ?_⟩
          · simp only [List.take_succ_cons, List.mem_cons, not_or]
            exact ⟨fun e => hc e.symm, g1⟩
          · simp only [List.take_succ_cons, List.drop_succ_cons, List.cons_append]
            rw [← g2]
          · simp [g3]

theorem findIdx_append (b k : Bytes) (h : (47 : UInt8) ∉ b) : (b ++ 47 :: k).findIdx? (· == 47) = some b.length := by
  induction b with
  | nil => simp [List.findIdx?_cons]
  | cons c b ih =>
    simp only [List.mem_cons, not_or] at h
    rw [List.cons_append, List.findIdx?_cons, if_neg (by simp; exact fun e => h.1 e.symm), ih h.2]
    simp

theorem findIdx_absent (b : Bytes) (h : (47 : UInt8) ∉ b) : b.findIdx? (· == 47) = none := by
  rw [List.findIdx?_eq_none_iff]
  intro x hx
  simp only [beq_eq_false_iff_ne, ne_eq]
  rintro rfl
  exact h hx

theorem splitPrefix_bucket (b : Bytes) (hb : b ≠ []) (h : (47 : UInt8) ∉ b) :
    splitPrefix (s3Scheme ++ b) = .ok (b, []) := by
  have e : s3Scheme = [115, 51, 58, 47, 47] := rfl
  simp only [splitPrefix, e, List.cons_append, List.nil_append, List.isEmpty_cons, Bool.false_eq_true, if_false,
    List.length_cons, List.take_succ_cons, List.take_zero, List.drop_succ_cons, List.drop_zero]
  rw [if_neg (by simp), if_neg (by simpa using hb), findIdx_absent b h]

theorem splitPrefix_join (b k : Bytes) (hb : b ≠ []) (h : (47 : UInt8) ∉ b) :
    splitPrefix (s3Scheme ++ b ++ 47 :: k) = .ok (b, k) := by
  have e : s3Scheme = [115, 51, 58, 47, 47] := rfl
  simp only [splitPrefix, e, List.cons_append, List.nil_append, List.isEmpty_cons, Bool.false_eq_true, if_false,
    List.length_cons, List.take_succ_cons, List.take_zero, List.drop_succ_cons, List.drop_zero]
  rw [if_neg (by simp), if_neg (by simp), findIdx_append b k h]
  rcases hl : b.length with _ | n
  · exact absurd (List.eq_nil_of_length_eq_zero hl) hb
  · simp only
    rw [← hl]
    simp

theorem splitPrefix_inv (uri b k : Bytes) (h : splitPrefix uri = .ok (b, k)) :
    b ≠ [] ∧ (47 : UInt8) ∉ b ∧ (uri = s3Scheme ++ b ++ 47 :: k ∨ (uri = s3Scheme ++ b ∧ k = [])) := by
  unfold splitPrefix at h
  split at h
  · cases h
  split at h
  · cases h
  rename_i hs
  simp only at h
  split at h
  · cases h
  rename_i hne
  simp only [Bool.or_eq_true, decide_eq_true_eq, bne_iff_ne, ne_eq, not_or, Classical.not_not] at hs
  have hu : uri = s3Scheme ++ uri.drop 5 := by rw [← hs.2, List.take_append_drop]
  have hne' : uri.drop 5 ≠ [] := by simpa using hne
  obtain ⟨f1, f2⟩ := findIdx_slash (uri.drop 5)
  split at h
  · rename_i hf
    simp only [Res.ok.injEq, Prod.mk.injEq] at h
    obtain ⟨rfl, rfl⟩ := h
    exact ⟨hne', f1 hf, Or.inr ⟨hu, rfl⟩⟩
  · cases h
  · rename_i pos hpos hf
    simp only [Res.ok.injEq, Prod.mk.injEq] at h
    obtain ⟨rfl, rfl⟩ := h
    obtain ⟨g1, g2, g3⟩ := f2 _ hf
    refine ⟨?_, g1, Or.inl ?_⟩
    · intro h0
      have : ((uri.drop 5).take pos).length = 0 := by rw [h0]; rfl
      rw [g3] at this
      exact hpos this
    · rw [List.append_assoc, ← g2]; exact hu

theorem splitPrefix_total (uri : Bytes) : (∃ p, splitPrefix uri = .ok p) ∨ splitPrefix uri = .err .invalidArgument := by
  unfold splitPrefix
  split
  · exact Or.inr rfl
  split
  · exact Or.inr rfl
  simp only
  split
  · exact Or.inr rfl
  split
  · exact Or.inl ⟨_, rfl⟩
  · exact Or.inr rfl
  · exact Or.inl ⟨_, rfl⟩

/-! ## Compression -/

theorem inferCompression_four (s : Bytes) (d a b c : UInt8) : inferCompression (s ++ [d, a, b, c]) =
    if a = 46 then (if b = 103 ∧ c = 122 then .gzip else .none)
    else if s ≠ [] ∧ d = 46 then
      (if a = 98 ∧ b = 122 ∧ c = 50 then .bzip2 else if a = 122 ∧ b = 105 ∧ c = 112 then .zip else .none)
    else .none := by
  have hlen : (s ++ [d, a, b, c]).length = s.length + 4 := by simp
  have e0 : (s ++ [d, a, b, c]).getD (s.length + 4 - 4) 0 = d := by
    simp [List.getD_eq_getElem?_getD, List.getElem?_append_right]
  have e1 : (s ++ [d, a, b, c]).getD (s.length + 4 - 3) 0 = a := by
    rw [show s.length + 4 - 3 = s.length + 1 by omega]
    simp [List.getD_eq_getElem?_getD, List.getElem?_append_right]
  have e2 : (s ++ [d, a, b, c]).getD (s.length + 4 - 2) 0 = b := by
    rw [show s.length + 4 - 2 = s.length + 2 by omega]
    simp [List.getD_eq_getElem?_getD, List.getElem?_append_right]
  have e3 : (s ++ [d, a, b, c]).getD (s.length + 4 - 1) 0 = c := by
    rw [show s.length + 4 - 1 = s.length + 3 by omega]
    simp [List.getD_eq_getElem?_getD, List.getElem?_append_right]
  unfold inferCompression
  simp only [hlen, e0, e1, e2, e3, Bool.and_eq_true, decide_eq_true_eq, beq_iff_eq]
  have hs : (s.length + 4 > 4) ↔ s ≠ [] := by rw [← List.length_pos_iff]; omega
  have hp : s.length + 4 > 3 := by omega
  simp only [hs, hp, true_and, and_assoc]

/-! ## The S3 stream -/

theorem s3_calls (x : Bytes) : ∀ (ks : List StreamCall) (p : Nat) (c : Bool), p ≤ x.length →
    S3Stream.calls x ⟨c, x.length, p⟩ ks = objectCalls x p c ks
  | [], _, _, _ => rfl
  | k :: ks, p, c, hp => by
    have hread : ∀ n, S3Stream.readInto x ⟨c, x.length, p⟩ n =
        if c then (.err .streamError, ⟨c, x.length, p⟩)
        else (.ok ((x.drop p).take n), ⟨c, x.length, min (p + n) x.length⟩) := by
      intro n
      rcases c with _ | _
      · simp only [S3Stream.readInto, Bool.false_eq_true, if_false]
        by_cases h0 : n = 0 ∨ p = x.length
        · rw [if_pos h0]
          rcases h0 with rfl | rfl
          · simp; omega
          · simp
        · rw [if_neg h0]
          have h1 : ¬ x.length ≤ p := by omega
          simp only [readObject, if_neg h1]
          have e : ((x.drop p).take (min (x.length - p) n + 1)).take (min (x.length - p) n) = (x.drop p).take n := by
            rw [List.take_take, Nat.min_eq_left (Nat.le_succ _), Nat.min_comm, ← List.take_take]
            congr 1
            exact List.take_of_length_le (by simp)
          rw [e]
          simp only [List.length_take, List.length_drop]
          congr 2
          omega
      · simp [S3Stream.readInto]
    have hseek : ∀ n, S3Stream.seek ⟨c, x.length, p⟩ n =
        if c then (.err .streamError, ⟨c, x.length, p⟩)
        else if n ≤ x.length then (.ok (), ⟨c, x.length, n⟩) else (.err .systemError, ⟨c, x.length, p⟩) := by
      intro n
      rcases c with _ | _
      · simp only [S3Stream.seek, Bool.false_eq_true, if_false]
        by_cases hn : n ≤ x.length
        · rw [if_pos hn, if_neg (by omega)]
        · rw [if_neg hn, if_pos (by omega)]
      · simp [S3Stream.seek]
    rcases k with n | n | n | _ | _ | _
    · simp only [S3Stream.calls, objectCalls, S3Stream.call, objectCall, hread]
      rcases c with _ | _
      · simp only [Bool.false_eq_true, if_false]; rw [s3_calls x ks _ _ (by omega)]
      · simp only [if_true]; rw [s3_calls x ks _ _ hp]
    · simp only [S3Stream.calls, objectCalls, S3Stream.call, objectCall, hread]
      rcases c with _ | _
      · simp only [Bool.false_eq_true, if_false]; rw [s3_calls x ks _ _ (by omega)]
      · simp only [if_true]; rw [s3_calls x ks _ _ hp]
    · simp only [S3Stream.calls, objectCalls, S3Stream.call, objectCall, hseek]
      rcases c with _ | _
      · simp only [Bool.false_eq_true, if_false]
        by_cases hn : n ≤ x.length
        · simp only [if_pos hn]; rw [s3_calls x ks _ _ hn]
        · simp only [if_neg hn]; rw [s3_calls x ks _ _ hp]
      · simp only [if_true]; rw [s3_calls x ks _ _ hp]
    · simp only [S3Stream.calls, objectCalls, S3Stream.call, objectCall]; rw [s3_calls x ks _ _ hp]
    · simp only [S3Stream.calls, objectCalls, S3Stream.call, objectCall]; rw [s3_calls x ks _ _ hp]
    · simp only [S3Stream.calls, objectCalls, S3Stream.call, objectCall]; rw [s3_calls x ks _ _ hp]

end Mlio
