import Verif.Spec.Stores

namespace Mlio
open Spec

/-! ## A linear order of lists of numbers -/

/-- Lexicographic comparison. -/
def lexCmp : List Int → List Int → Int
  | [], [] => 0
  | [], _ :: _ => -1
  | _ :: _, [] => 1
  | a :: as, b :: bs => if a < b then -1 else if a > b then 1 else lexCmp as bs

theorem lexCmp_self : ∀ (l : List Int), lexCmp l l = 0
  | [] => rfl
  | a :: l => by simp [lexCmp, lexCmp_self l]

theorem lexCmp_eq : ∀ (l m : List Int), lexCmp l m = 0 → l = m
  | [], [], _ => rfl
  | [], _ :: _, h => by simp [lexCmp] at h
  | _ :: _, [], h => by simp [lexCmp] at h
  | a :: as, b :: bs, h => by
    simp only [lexCmp] at h
    split at h
    · omega
    · split at h
      · omega
      · rw [lexCmp_eq as bs h, show a = b by omega]

theorem lexCmp_swap : ∀ (l m : List Int), lexCmp m l = -lexCmp l m
  | [], [] => rfl
  | [], _ :: _ => rfl
  | _ :: _, [] => rfl
  | a :: as, b :: bs => by
    simp only [lexCmp]
    rcases Int.lt_trichotomy a b with h | h | h
    · rw [if_pos h, if_neg (by omega), if_pos h]; rfl
    · subst h
      rw [if_neg (by omega), if_neg (by omega), if_neg (by omega), if_neg (by omega), lexCmp_swap as bs]
    · rw [if_pos h, if_neg (by omega), if_pos h]

theorem lexCmp_trans : ∀ (l m n : List Int), lexCmp l m < 0 → lexCmp m n < 0 → lexCmp l n < 0
  | [], [], _, h, _ => by simp [lexCmp] at h
  | [], _ :: _, [], _, h => by simp [lexCmp] at h
  | [], _ :: _, _ :: _, _, _ => by simp [lexCmp]
  | _ :: _, [], _, h, _ => by simp [lexCmp] at h
  | _ :: _, _ :: _, [], _, h => by simp [lexCmp] at h
  | a :: as, b :: bs, c :: cs, h1, h2 => by
    simp only [lexCmp] at h1 h2 ⊢
    split at h1
    · split at h2
      · rw [if_pos (by omega)]; omega
      · split at h2
        · omega
        · rw [if_pos (by omega)]; omega
    · split at h1
      · omega
      · split at h2
        · rw [if_pos (by omega)]; omega
        · split at h2
          · omega
          · rw [if_neg (by omega), if_neg (by omega)]
            exact lexCmp_trans as bs cs h1 h2

theorem lexCmp_append : ∀ (p l m : List Int), lexCmp (p ++ l) (p ++ m) = lexCmp l m
  | [], _, _ => rfl
  | a :: p, l, m => by simp [lexCmp, lexCmp_append p l m]

/-! ## Keys -/

/-- The key of a run of digits. -/
def runKey (x : Bytes) : List Int :=
  if x.head? = some 48 then 48 :: (x.map (fun c => (c.toNat : Int)) ++ [-1])
  else 49 :: (x.length : Int) :: x.map (fun c => (c.toNat : Int))

/-- The key of a string: runs of digits, other characters, and a zero at the end; no spaces. -/
def natKey (signed : Bool) (s : Bytes) : List Int :=
  match h : s.dropWhile natSpace with
  | [] => [0]
  | c :: r =>
    if natDigit c then runKey (c :: r.takeWhile natDigit) ++ natKey signed (r.dropWhile natDigit)
    else charVal signed c :: natKey signed r
termination_by s.length
decreasing_by
  · have h1 := (List.dropWhile_sublist natSpace (l := s)).length_le
    have h2 := (List.dropWhile_sublist natDigit (l := r)).length_le
    rw [h] at h1
    simp only [List.length_cons] at h1
    omega
  · have h1 := (List.dropWhile_sublist natSpace (l := s)).length_le
    rw [h] at h1
    simp only [List.length_cons] at h1
    omega

theorem natKey_nil (signed : Bool) (s : Bytes) (h : s.dropWhile natSpace = []) : natKey signed s = [0] := by
  rw [natKey]
  split
  · rfl
  · rename_i h'; rw [h] at h'; cases h'

theorem natKey_cons (signed : Bool) (s : Bytes) (c : UInt8) (r : Bytes) (h : s.dropWhile natSpace = c :: r) :
    natKey signed s = if natDigit c then runKey (c :: r.takeWhile natDigit) ++ natKey signed (r.dropWhile natDigit)
      else charVal signed c :: natKey signed r := by
  rw [natKey]
  split
  · rename_i h'; rw [h] at h'; cases h'
  · rename_i c' r' h'
    rw [h] at h'
    simp only [List.cons.injEq] at h'
    obtain ⟨rfl, rfl⟩ := h'
    rfl

/-! ## Runs of digits -/

/-- All characters are digits. -/
def AllDigits (x : Bytes) : Prop := ∀ c ∈ x, natDigit c = true

/-- The first character is not a digit. -/
def NoDigitHead (x : Bytes) : Prop := ∀ c, x.head? = some c → natDigit c = false

theorem mem_takeWhile_prop (p : UInt8 → Bool) : ∀ (l : Bytes) (c : UInt8), c ∈ l.takeWhile p → p c = true
  | [], _, h => by simp at h
  | d :: l, c, h => by
    simp only [List.takeWhile] at h
    split at h
    · rename_i hd
      simp only [List.mem_cons] at h
      rcases h with rfl | h
      · exact hd
      · exact mem_takeWhile_prop p l c h
    · simp at h

theorem takeWhile_digits (r : Bytes) : AllDigits (r.takeWhile natDigit) := by
  intro c hc
  exact mem_takeWhile_prop _ _ _ hc

theorem dropWhile_noDigit (r : Bytes) : NoDigitHead (r.dropWhile natDigit) := by
  intro c hc
  have := List.head?_dropWhile_not natDigit r
  rw [hc] at this
  simpa using this

theorem run_split (c : UInt8) (r : Bytes) : c :: r = (c :: r.takeWhile natDigit) ++ r.dropWhile natDigit := by
  simp

theorem compareLeft_spec : ∀ (x y a b : Bytes), AllDigits x → AllDigits y → NoDigitHead a → NoDigitHead b →
    ∀ (K L : List Int),
    (x = y → compareLeft (x ++ a) (y ++ b) = 0) ∧
    (x ≠ y → compareLeft (x ++ a) (y ++ b) ≠ 0 ∧ compareLeft (x ++ a) (y ++ b) =
      lexCmp (x.map (fun c => (c.toNat : Int)) ++ -1 :: K) (y.map (fun c => (c.toNat : Int)) ++ -1 :: L))
  | [], [], a, b, _, _, ha, hb, K, L => by
    refine ⟨fun _ => ?_, fun h => absurd rfl h⟩
    rcases a with _ | ⟨ca, as⟩ <;> rcases b with _ | ⟨cb, bs⟩
    · rfl
    · simp [compareLeft, hb cb rfl]
    · simp [compareLeft, ha ca rfl]
    · simp [compareLeft, ha ca rfl, hb cb rfl]
  | [], d :: y, a, b, _, hy, ha, hb, K, L => by
    have hd := hy d (by simp)
    refine ⟨fun h => by simp at h, fun _ => ?_⟩
    have : compareLeft ([] ++ a) ((d :: y) ++ b) = -1 := by
      rcases a with _ | ⟨ca, as⟩
      · simp [compareLeft, hd]
      · simp [compareLeft, hd, ha ca rfl]
    rw [this]
    refine ⟨by decide, ?_⟩
    simp only [List.map_nil, List.nil_append, List.map_cons, List.cons_append, lexCmp]
    rw [if_pos (by omega)]
  | c :: x, [], a, b, hx, _, ha, hb, K, L => by
    have hd := hx c (by simp)
    refine ⟨fun h => by simp at h, fun _ => ?_⟩
    have : compareLeft ((c :: x) ++ a) ([] ++ b) = 1 := by
      rcases b with _ | ⟨cb, bs⟩
      · simp [compareLeft, hd]
      · simp [compareLeft, hd, hb cb rfl]
    rw [this]
    refine ⟨by decide, ?_⟩
    simp only [List.map_nil, List.nil_append, List.map_cons, List.cons_append, lexCmp]
    rw [if_neg (by omega), if_pos (by omega)]
  | c :: x, d :: y, a, b, hx, hy, ha, hb, K, L => by
    have hc := hx c (by simp)
    have hd := hy d (by simp)
    obtain ⟨i1, i2⟩ := compareLeft_spec x y a b (fun z hz => hx z (by simp [hz])) (fun z hz => hy z (by simp [hz]))
      ha hb K L
    have step : compareLeft ((c :: x) ++ a) ((d :: y) ++ b) =
        if c < d then -1 else if c > d then 1 else compareLeft (x ++ a) (y ++ b) := by
      simp [compareLeft, hc, hd]
    rw [step]
    simp only [List.map_cons, List.cons_append, lexCmp]
    rcases Nat.lt_trichotomy c.toNat d.toNat with h | h | h
    · have hcd : c < d := h
      rw [if_pos hcd, if_pos (by omega)]
      exact ⟨fun he => by simp only [List.cons.injEq] at he; rw [he.1] at h; omega, fun _ => ⟨by decide, rfl⟩⟩
    · have hcd : c = d := UInt8.toNat_inj.1 h
      subst hcd
      rw [if_neg (by intro h'; exact absurd h' (Nat.lt_irrefl _)), if_neg (by intro h'; exact absurd h' (Nat.lt_irrefl _)),
        if_neg (by omega), if_neg (by omega)]
      simp only [List.cons.injEq, true_and, ne_eq]
      exact ⟨i1, i2⟩
    · have hcd : d < c := h
      rw [if_neg (by intro h'; exact absurd (Nat.lt_trans h' hcd) (Nat.lt_irrefl _)), if_pos hcd, if_neg (by omega), if_pos (by omega)]
      exact ⟨fun he => by simp only [List.cons.injEq] at he; rw [he.1] at h; omega, fun _ => ⟨by decide, rfl⟩⟩

theorem compareRight_spec : ∀ (x y a b : Bytes) (bias : Int), AllDigits x → AllDigits y → NoDigitHead a → NoDigitHead b →
    ∀ (K L : List Int),
    (x.length < y.length → compareRight (x ++ a) (y ++ b) bias = -1) ∧
    (y.length < x.length → compareRight (x ++ a) (y ++ b) bias = 1) ∧
    (x.length = y.length → compareRight (x ++ a) (y ++ b) bias =
      if bias ≠ 0 then bias
      else if x = y then 0
      else lexCmp (x.map (fun c => (c.toNat : Int)) ++ K) (y.map (fun c => (c.toNat : Int)) ++ L))
  | [], [], a, b, bias, _, _, ha, hb, K, L => by
    refine ⟨fun h => by simp at h, fun h => by simp at h, fun _ => ?_⟩
    have : compareRight ([] ++ a) ([] ++ b) bias = bias := by
      rcases a with _ | ⟨ca, as⟩ <;> rcases b with _ | ⟨cb, bs⟩
      · rfl
      · simp [compareRight, hb cb rfl]
      · simp [compareRight, ha ca rfl]
      · simp [compareRight, ha ca rfl, hb cb rfl]
    rw [this]
    split
    · rfl
    · simp only [if_true]; omega
  | [], d :: y, a, b, bias, _, hy, ha, hb, K, L => by
    have hd := hy d (by simp)
    refine ⟨fun _ => ?_, fun h => by simp at h, fun h => by simp at h⟩
    rcases a with _ | ⟨ca, as⟩
    · simp [compareRight, hd]
    · simp [compareRight, hd, ha ca rfl]
  | c :: x, [], a, b, bias, hx, _, ha, hb, K, L => by
    have hd := hx c (by simp)
    refine ⟨fun h => by simp at h, fun _ => ?_, fun h => by simp at h⟩
    rcases b with _ | ⟨cb, bs⟩
    · simp [compareRight, hd]
    · simp [compareRight, hd, hb cb rfl]
  | c :: x, d :: y, a, b, bias, hx, hy, ha, hb, K, L => by
    have hc := hx c (by simp)
    have hd := hy d (by simp)
    have ih := fun bias => compareRight_spec x y a b bias (fun z hz => hx z (by simp [hz]))
      (fun z hz => hy z (by simp [hz])) ha hb K L
    have step : compareRight ((c :: x) ++ a) ((d :: y) ++ b) bias =
        if c < d then compareRight (x ++ a) (y ++ b) (if bias = 0 then -1 else bias)
        else if c > d then compareRight (x ++ a) (y ++ b) (if bias = 0 then 1 else bias)
        else compareRight (x ++ a) (y ++ b) bias := by
      simp [compareRight, hc, hd]
    rw [step]
    simp only [List.length_cons, Nat.succ_lt_succ_iff, Nat.succ.injEq, List.map_cons, List.cons_append, lexCmp,
      List.cons.injEq]
    rcases Nat.lt_trichotomy c.toNat d.toNat with h | h | h
    · have hcd : c < d := h
      have hne : c ≠ d := fun e => by subst e; omega
      rw [if_pos hcd]
      obtain ⟨i1, i2, i3⟩ := ih (if bias = 0 then -1 else bias)
      refine ⟨fun hl => i1 (by omega), fun hl => i2 (by omega), fun hl => ?_⟩
      rw [i3 (by omega)]
      by_cases hb0 : bias = 0
      · simp only [hb0, if_true, ne_eq, not_true_eq_false, if_false]
        rw [if_pos (by decide), if_neg (by simp [hne]), if_pos (by omega)]
      · simp only [ne_eq, hb0, not_false_eq_true, if_true, if_false]
    · have hcd : c = d := UInt8.toNat_inj.1 h
      subst hcd
      rw [if_neg (by intro h'; exact absurd h' (Nat.lt_irrefl _)), if_neg (by intro h'; exact absurd h' (Nat.lt_irrefl _))]
      obtain ⟨i1, i2, i3⟩ := ih bias
      refine ⟨fun hl => i1 (by omega), fun hl => i2 (by omega), fun hl => ?_⟩
      rw [i3 (by omega)]
      simp only [true_and, gt_iff_lt, Int.lt_irrefl, if_false]
    · have hcd : d < c := h
      have hne : c ≠ d := fun e => by subst e; omega
      rw [if_neg (by intro h'; exact absurd (Nat.lt_trans h' hcd) (Nat.lt_irrefl _)), if_pos hcd]
      obtain ⟨i1, i2, i3⟩ := ih (if bias = 0 then 1 else bias)
      refine ⟨fun hl => i1 (by omega), fun hl => i2 (by omega), fun hl => ?_⟩
      rw [i3 (by omega)]
      by_cases hb0 : bias = 0
      · simp only [hb0, if_true, ne_eq, not_true_eq_false, if_false]
        rw [if_pos (by decide), if_neg (by simp [hne]), if_neg (by omega), if_pos (by omega)]
      · simp only [ne_eq, hb0, not_false_eq_true, if_true, if_false]

theorem compareRuns_spec (x y a b : Bytes) (hx : AllDigits x) (hy : AllDigits y) (hx0 : x ≠ []) (hy0 : y ≠ [])
    (ha : NoDigitHead a) (hb : NoDigitHead b) (K L : List Int) :
    (x = y → compareRuns (x ++ a) (y ++ b) = 0) ∧
    (x ≠ y → compareRuns (x ++ a) (y ++ b) ≠ 0 ∧
      compareRuns (x ++ a) (y ++ b) = lexCmp (runKey x ++ K) (runKey y ++ L)) := by
  rcases x with _ | ⟨c, x⟩
  · exact absurd rfl hx0
  rcases y with _ | ⟨d, y⟩
  · exact absurd rfl hy0
  have hc := hx c (by simp)
  have hd := hy d (by simp)
  have hcn : 48 ≤ c.toNat ∧ c.toNat ≤ 57 := by simpa [natDigit] using hc
  have hdn : 48 ≤ d.toNat ∧ d.toNat ≤ 57 := by simpa [natDigit] using hd
  have hc48 : ∀ e : UInt8, e = 48 ↔ e.toNat = 48 := fun e => by
    constructor
    · rintro rfl; rfl
    · intro h; exact UInt8.toNat_inj.1 h
  have e : compareRuns ((c :: x) ++ a) ((d :: y) ++ b) =
      if c = 48 || d = 48 then compareLeft ((c :: x) ++ a) ((d :: y) ++ b) else compareRight ((c :: x) ++ a) ((d :: y) ++ b) 0 := by
    simp [compareRuns, hc, hd]
  rw [e]
  by_cases hz : c = 48 ∨ d = 48
  · rw [if_pos (by simpa using hz)]
    have hl := compareLeft_spec (c :: x) (d :: y) a b hx hy ha hb K L
    refine ⟨hl.1, fun hne => ⟨(hl.2 hne).1, ?_⟩⟩
    rw [(hl.2 hne).2]
    unfold runKey
    by_cases h1 : c = 48 <;> by_cases h2 : d = 48
    · rw [if_pos (by simp [h1]), if_pos (by simp [h2])]
      simp [lexCmp]
    · rw [if_pos (by simp [h1]), if_neg (by simp [h2])]
      have : (48 : Int) < d.toNat := by have := mt (hc48 d).2 h2; omega
      subst h1
      simp only [List.map_cons, List.cons_append, lexCmp]
      rw [if_pos (by simpa using this), if_pos (by decide)]
    · rw [if_neg (by simp [h1]), if_pos (by simp [h2])]
      have : (48 : Int) < c.toNat := by have := mt (hc48 c).2 h1; omega
      subst h2
      simp only [List.map_cons, List.cons_append, lexCmp]
      have e48 : ((48 : UInt8).toNat : Int) = 48 := rfl
      rw [e48, if_neg (by omega), if_pos (by omega), if_neg (by decide), if_pos (by decide)]
    · rcases hz with h | h
      · exact absurd h h1
      · exact absurd h h2
  · rw [if_neg (by simpa using hz)]
    have h1 : c ≠ 48 := fun h => hz (Or.inl h)
    have h2 : d ≠ 48 := fun h => hz (Or.inr h)
    obtain ⟨r1, r2, r3⟩ := compareRight_spec (c :: x) (d :: y) a b 0 hx hy ha hb K L
    have hk : lexCmp (runKey (c :: x) ++ K) (runKey (d :: y) ++ L) =
        if ((c :: x).length : Int) < (d :: y).length then -1 else if ((c :: x).length : Int) > (d :: y).length then 1
        else lexCmp ((c :: x).map (fun c => (c.toNat : Int)) ++ K) ((d :: y).map (fun c => (c.toNat : Int)) ++ L) := by
      unfold runKey
      rw [if_neg (by simpa using h1), if_neg (by simpa using h2)]
      simp only [List.cons_append, lexCmp, gt_iff_lt, Int.lt_irrefl, if_false]
    rw [hk]
    rcases Nat.lt_trichotomy (c :: x).length (d :: y).length with h | h | h
    · rw [r1 h, if_pos (by exact_mod_cast h)]
      exact ⟨fun he => by rw [he] at h; omega, fun _ => ⟨by decide, rfl⟩⟩
    · rw [r3 h, h, if_neg (Int.lt_irrefl _), if_neg (Int.lt_irrefl _)]
      simp only [ne_eq, not_true_eq_false, if_false]
      refine ⟨fun he => by rw [if_pos he], fun hne => ?_⟩
      rw [if_neg hne]
      refine ⟨fun h0 => ?_, rfl⟩
      have heq := lexCmp_eq _ _ h0
      have hlen : ((c :: x).map (fun c => (c.toNat : Int))).length = ((d :: y).map (fun c => (c.toNat : Int))).length := by
        simpa using h
      have hmap := (List.append_inj heq hlen).1
      have hinj : Function.Injective (fun c : UInt8 => (c.toNat : Int)) := by
        intro u v huv
        simp only at huv
        exact UInt8.toNat_inj.1 (by omega)
      exact hne ((List.map_inj_right (fun u v huv => hinj huv)).1 hmap)
    · rw [r2 h, if_neg (by omega), if_pos (by exact_mod_cast h)]
      exact ⟨fun he => by rw [he] at h; omega, fun _ => ⟨by decide, rfl⟩⟩

theorem digit_not_space {c : UInt8} (h : natDigit c = true) : natSpace c = false := by
  have hcn : 48 ≤ c.toNat ∧ c.toNat ≤ 57 := by simpa [natDigit] using h
  simp [natSpace]; omega

theorem dropWhile_digit {c : UInt8} (s : Bytes) (h : natDigit c = true) : (c :: s).dropWhile natSpace = c :: s := by
  simp [List.dropWhile, digit_not_space h]

/-- After equal runs of digits, the loop goes on behind them. -/
theorem natLoop_run (signed : Bool) : ∀ (x a b : Bytes) (n : Nat), AllDigits x → NoDigitHead a → NoDigitHead b →
    natLoop signed (n + x.length) (x ++ a) (x ++ b) = natLoop signed n a b
  | [], _, _, _, _, _, _ => rfl
  | c :: x, a, b, n, hx, ha, hb => by
    have hc := hx c (by simp)
    have ih := natLoop_run signed x a b n (fun z hz => hx z (by simp [hz])) ha hb
    have hr := (compareRuns_spec (c :: x) (c :: x) a b hx hx (by simp) (by simp) ha hb [] []).1 rfl
    have e : n + (c :: x).length = (n + x.length) + 1 := by simp only [List.length_cons]; omega
    rw [e]
    simp only [List.cons_append] at hr ⊢
    simp only [natLoop, dropWhile_digit _ hc, hr, ne_eq, not_true_eq_false, if_false, gt_iff_lt, Int.lt_irrefl]
    exact ih

theorem charVal_digit (signed : Bool) {c : UInt8} (h : natDigit c = true) : charVal signed c = c.toNat := by
  have hcn : 48 ≤ c.toNat ∧ c.toNat ≤ 57 := by simpa [natDigit] using h
  unfold charVal
  rw [if_neg (by simp; omega)]

theorem charVal_other (signed : Bool) {c : UInt8} (h : natDigit c = false) : charVal signed c < 48 ∨ 57 < charVal signed c := by
  have hlt := c.toNat_lt
  have : ¬ (48 ≤ c.toNat ∧ c.toNat ≤ 57) := by
    simp only [natDigit, Bool.and_eq_false_iff, decide_eq_false_iff_not] at h
    omega
  unfold charVal
  split <;> omega

theorem charVal_zero (signed : Bool) {c : UInt8} (h : charVal signed c = 0) : c = 0 := by
  have hlt := c.toNat_lt
  unfold charVal at h
  split at h
  · omega
  · exact UInt8.toNat_inj.1 (by simp; omega)

theorem charVal_inj (signed : Bool) {c d : UInt8} (h : charVal signed c = charVal signed d) : c = d := by
  have h1 := c.toNat_lt
  have h2 := d.toNat_lt
  apply UInt8.toNat_inj.1
  unfold charVal at h
  split at h <;> split at h <;> rename_i ha hb <;> simp only [Bool.and_eq_true, decide_eq_true_eq] at ha hb
  · omega
  · rcases Nat.lt_or_ge d.toNat 128 with h' | h'
    · omega
    · exact absurd ⟨ha.1, h'⟩ hb
  · rcases Nat.lt_or_ge c.toNat 128 with h' | h'
    · omega
    · exact absurd ⟨hb.1, h'⟩ ha
  · omega

theorem runKey_head (x : Bytes) : ∃ h t, runKey x = h :: t ∧ (h = 48 ∨ h = 49) := by
  unfold runKey
  split
  · exact ⟨_, _, rfl, Or.inl rfl⟩
  · exact ⟨_, _, rfl, Or.inr rfl⟩

theorem natLoop_key (signed : Bool) : ∀ (n : Nat) (a b : Bytes), a.length < n → (0 : UInt8) ∉ a → (0 : UInt8) ∉ b →
    natLoop signed n a b = lexCmp (natKey signed a) (natKey signed b) := by
  intro n
  induction n using Nat.strongRecOn with
  | ind n ih =>
    intro a b hl ha hb
    rcases n with _ | n
    · omega
    have hla := (List.dropWhile_sublist natSpace (l := a)).length_le
    have hsa := List.dropWhile_sublist natSpace (l := a)
    have hsb := List.dropWhile_sublist natSpace (l := b)
    simp only [natLoop]
    rcases hda : a.dropWhile natSpace with _ | ⟨ca, as⟩ <;> rcases hdb : b.dropWhile natSpace with _ | ⟨cb, bs⟩
    · simp [compareRuns, natKey_nil signed a hda, natKey_nil signed b hdb, lexCmp]
    · rw [natKey_nil signed a hda, natKey_cons signed b cb bs hdb]
      have hcb : cb ≠ 0 := fun h => hb (hsb.subset (by rw [hdb, h]; simp))
      simp only [compareRuns, ne_eq, not_true_eq_false, if_false]
      cases hdig : natDigit cb with
      | true =>
        have hcn : 48 ≤ cb.toNat ∧ cb.toNat ≤ 57 := by simpa [natDigit] using hdig
        obtain ⟨h, t, he, hh⟩ := runKey_head (cb :: bs.takeWhile natDigit)
        rw [charVal_digit signed hdig, if_pos (by omega)]
        simp only [if_true, he, List.cons_append, lexCmp]
        rw [if_pos (by omega)]
      | false =>
        simp only [Bool.false_eq_true, if_false, lexCmp]
        have : charVal signed cb ≠ 0 := fun h => hcb (charVal_zero signed h)
        by_cases h0 : 0 < charVal signed cb
        · rw [if_pos h0, if_pos h0]
        · rw [if_neg h0, if_neg h0, if_pos (by omega)]
    · rw [natKey_nil signed b hdb, natKey_cons signed a ca as hda]
      have hca : ca ≠ 0 := fun h => ha (hsa.subset (by rw [hda, h]; simp))
      simp only [compareRuns, ne_eq, not_true_eq_false, if_false]
      cases hdig : natDigit ca with
      | true =>
        have hcn : 48 ≤ ca.toNat ∧ ca.toNat ≤ 57 := by simpa [natDigit] using hdig
        obtain ⟨h, t, he, hh⟩ := runKey_head (ca :: as.takeWhile natDigit)
        rw [charVal_digit signed hdig, if_neg (by omega)]
        simp only [if_true, he, List.cons_append, lexCmp]
        rw [if_neg (by omega), if_pos (by omega)]
      | false =>
        simp only [Bool.false_eq_true, if_false, lexCmp]
        have : charVal signed ca ≠ 0 := fun h => hca (charVal_zero signed h)
        by_cases h0 : charVal signed ca < 0
        · rw [if_pos h0, if_pos h0]
        · rw [if_neg h0, if_neg h0, if_pos (by omega)]
    · rw [natKey_cons signed a ca as hda, natKey_cons signed b cb bs hdb]
      rw [hda] at hla
      simp only [List.length_cons] at hla
      have has : (0 : UInt8) ∉ as := fun h => ha (hsa.subset (by rw [hda]; simp [h]))
      have hbs : (0 : UInt8) ∉ bs := fun h => hb (hsb.subset (by rw [hdb]; simp [h]))
      cases hd1 : natDigit ca <;> cases hd2 : natDigit cb
      · -- two other characters
        have hr : compareRuns (ca :: as) (cb :: bs) = 0 := by simp [compareRuns, hd1]
        simp only [hr, ne_eq, not_true_eq_false, if_false, Bool.false_eq_true, lexCmp]
        rw [ih n (by omega) as bs (by omega) has hbs]
      · have hr : compareRuns (ca :: as) (cb :: bs) = 0 := by simp [compareRuns, hd1]
        have h2n : 48 ≤ cb.toNat ∧ cb.toNat ≤ 57 := by simpa [natDigit] using hd2
        obtain ⟨h, t, he, hh⟩ := runKey_head (cb :: bs.takeWhile natDigit)
        have ho := charVal_other signed hd1
        simp only [hr, ne_eq, not_true_eq_false, if_false, Bool.false_eq_true, if_true, he, List.cons_append, lexCmp,
          charVal_digit signed hd2]
        rcases ho with ho | ho
        · rw [if_pos (by omega), if_pos (by omega)]
        · rw [if_neg (by omega), if_pos (by omega), if_neg (by omega), if_pos (by omega)]
      · have hr : compareRuns (ca :: as) (cb :: bs) = 0 := by simp [compareRuns, hd2]
        have h1n : 48 ≤ ca.toNat ∧ ca.toNat ≤ 57 := by simpa [natDigit] using hd1
        obtain ⟨h, t, he, hh⟩ := runKey_head (ca :: as.takeWhile natDigit)
        have ho := charVal_other signed hd2
        simp only [hr, ne_eq, not_true_eq_false, if_false, Bool.false_eq_true, if_true, he, List.cons_append, lexCmp,
          charVal_digit signed hd1]
        rcases ho with ho | ho
        · rw [if_neg (by omega), if_pos (by omega), if_neg (by omega), if_pos (by omega)]
        · rw [if_pos (by omega), if_pos (by omega)]
      · -- two runs of digits
        have hx : AllDigits (ca :: as.takeWhile natDigit) := by
          intro z hz
          simp only [List.mem_cons] at hz
          rcases hz with rfl | hz
          · exact hd1
          · exact takeWhile_digits as z hz
        have hy : AllDigits (cb :: bs.takeWhile natDigit) := by
          intro z hz
          simp only [List.mem_cons] at hz
          rcases hz with rfl | hz
          · exact hd2
          · exact takeWhile_digits bs z hz
        have ea : ca :: as = (ca :: as.takeWhile natDigit) ++ as.dropWhile natDigit := by simp
        have eb : cb :: bs = (cb :: bs.takeWhile natDigit) ++ bs.dropWhile natDigit := by simp
        have hr := compareRuns_spec _ _ _ _ hx hy (by simp) (by simp) (dropWhile_noDigit as) (dropWhile_noDigit bs)
          (natKey signed (as.dropWhile natDigit)) (natKey signed (bs.dropWhile natDigit))
        rw [← ea, ← eb] at hr
        simp only [if_true]
        by_cases hxy : ca :: as.takeWhile natDigit = cb :: bs.takeWhile natDigit
        · rw [hr.1 hxy]
          simp only [ne_eq, not_true_eq_false, if_false]
          have hcc : ca = cb := (List.cons.inj hxy).1
          have htt : as.takeWhile natDigit = bs.takeWhile natDigit := (List.cons.inj hxy).2
          subst hcc
          simp only [gt_iff_lt, Int.lt_irrefl, if_false]
          rw [htt, lexCmp_append]
          have e1 : as = bs.takeWhile natDigit ++ as.dropWhile natDigit := by rw [← htt]; simp
          have e2 : bs = bs.takeWhile natDigit ++ bs.dropWhile natDigit := by simp
          have hlen : (bs.takeWhile natDigit).length + (as.dropWhile natDigit).length = as.length := by
            have := congrArg List.length e1
            simp only [List.length_append] at this
            omega
          have key := natLoop_run signed (bs.takeWhile natDigit) (as.dropWhile natDigit) (bs.dropWhile natDigit)
            (n - (bs.takeWhile natDigit).length) (takeWhile_digits bs) (dropWhile_noDigit as) (dropWhile_noDigit bs)
          rw [← e1, ← e2, Nat.sub_add_cancel (by omega)] at key
          rw [key]
          refine ih _ (by omega) _ _ (by omega) ?_ ?_
          · exact fun h => has ((List.dropWhile_sublist natDigit).subset h)
          · exact fun h => hbs ((List.dropWhile_sublist natDigit).subset h)
        · rw [if_pos (hr.2 hxy).1]
          exact (hr.2 hxy).2

theorem cstr_no_zero (s : Bytes) : (0 : UInt8) ∉ cstr s := by
  intro h
  have := mem_takeWhile_prop _ _ _ h
  simp at this

theorem strnatcmp_key (signed : Bool) (a b : Bytes) :
    strnatcmp signed a b = lexCmp (natKey signed (cstr a)) (natKey signed (cstr b)) :=
  natLoop_key signed _ _ _ (by omega) (cstr_no_zero a) (cstr_no_zero b)

end Mlio
