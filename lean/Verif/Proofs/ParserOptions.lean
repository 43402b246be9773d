import Verif.Proofs.Number
import Verif.Spec.ParserOptions

/-! # Lemmas for the parser options -/

namespace Mlio

open Spec

theorem white_one (c : UInt8) : White [c] ↔ isSpace c = true := by
  rw [isSpace_iff]
  exact ⟨fun h => h c (List.mem_singleton.2 rfl), fun h d hd => by rw [List.mem_singleton.1 hd]; exact h⟩

theorem not_white_one {c : UInt8} (h : ¬ White [c]) : isSpace c = false := by
  cases hc : isSpace c with
  | false => rfl
  | true => exact absurd ((white_one c).2 hc) h

theorem trim_white (s : Bytes) (h : White s) : trim s = [] := by
  have h1 : s.dropWhile isSpace = [] := by
    have := dropWhile_append_all isSpace s [] (white_isSpace s h)
    simpa using this
  simp [trim, h1]

theorem trim_stripped {w s : Bytes} (h : StrippedOf w s) : trim s = w := by
  obtain ⟨pre, post, rfl, h1, h2, h3, h4⟩ := h
  by_cases hw : w = []
  · subst hw
    apply trim_white
    intro c hc
    simp only [List.append_nil, List.mem_append] at hc
    exact hc.elim (h1 c) (h2 c)
  · exact trim_eq pre w post (white_isSpace pre h1) (white_isSpace post h2)
      (fun c hc => not_white_one (h3 c hc)) (fun c hc => not_white_one (h4 c hc)) hw

theorem dropWhile_head_not (p : UInt8 → Bool) (s : Bytes) (c : UInt8) (h : (s.dropWhile p).head? = some c) : p c = false := by
  induction s with
  | nil => simp at h
  | cons a s ih =>
    by_cases ha : p a = true
    · rw [List.dropWhile_cons_of_pos ha] at h; exact ih h
    · rw [List.dropWhile_cons_of_neg ha] at h
      simp at h
      subst h
      exact Bool.eq_false_iff.2 ha

theorem dropWhile_suffix' (p : UInt8 → Bool) (s : Bytes) (h : s.dropWhile p ≠ []) :
    (s.dropWhile p).getLast? = s.getLast? := by
  induction s with
  | nil => simp at h
  | cons a s ih =>
    by_cases ha : p a = true
    · rw [List.dropWhile_cons_of_pos ha] at h ⊢
      have hs : s ≠ [] := by rintro rfl; simp at h
      rw [ih h, List.getLast?_cons_of_ne_nil hs]
    · rw [List.dropWhile_cons_of_neg ha]

theorem stripped_trim (s : Bytes) : StrippedOf (trim s) s := by
  obtain ⟨pre, post, h, h1, h2⟩ := trim_split s
  refine ⟨pre, post, h, fun c hc => (isSpace_iff c).1 (h1 c hc), fun c hc => (isSpace_iff c).1 (h2 c hc), ?_, ?_⟩
  · intro c hc hw
    have hsp := (white_one c).1 hw
    unfold trim at hc
    rw [List.head?_reverse] at hc
    have hne : (s.dropWhile isSpace).reverse.dropWhile isSpace ≠ [] := by
      intro h0; rw [h0] at hc; simp at hc
    rw [dropWhile_suffix' _ _ hne, List.getLast?_reverse] at hc
    rw [dropWhile_head_not _ _ _ hc] at hsp
    cases hsp
  · intro c hc hw
    have hsp := (white_one c).1 hw
    unfold trim at hc
    rw [List.getLast?_reverse] at hc
    rw [dropWhile_head_not _ _ _ hc] at hsp
    cases hsp

theorem trim_iff (w s : Bytes) : trim s = w ↔ StrippedOf w s :=
  ⟨fun h => h ▸ stripped_trim s, trim_stripped⟩

/-! ## Texts in base 10 -/

theorem digitOf_ten {c : UInt8} {d : Nat} (h : digitOf c = some d) (hd : d < 10) : c = UInt8.ofNat (48 + d) := by
  unfold digitOf at h
  have hc := c.toNat_lt
  apply UInt8.toNat_inj.1
  rw [UInt8.toNat_ofNat']
  split at h
  · injection h with h; omega
  · split at h
    · injection h with h; omega
    · split at h
      · injection h with h; omega
      · cases h

theorem digitOf_fin (d : Fin 10) : digitOf (UInt8.ofNat (48 + d.val)) = some d.val := by
  revert d; decide

theorem digits_ten : ∀ ds : Bytes, (∀ c ∈ ds, ∃ d, digitOf c = some d ∧ d < 10) →
    ∃ fs : List (Fin 10), fs.map (fun d => UInt8.ofNat (48 + d.val)) = ds
  | [], _ => ⟨[], rfl⟩
  | c :: ds, h => by
    obtain ⟨d, h1, h2⟩ := h c (by simp)
    obtain ⟨fs, hf⟩ := digits_ten ds (fun x hx => h x (by simp [hx]))
    exact ⟨⟨d, h2⟩ :: fs, by rw [List.map_cons, hf, digitOf_ten h1 h2]⟩

theorem digits_value (fs : List (Fin 10)) (v : Nat) :
    (fs.map (fun d => UInt8.ofNat (48 + d.val))).foldl (fun v c => 10 * v + (digitOf c).getD 0) v =
      fs.foldl (fun v d => 10 * v + d.val) v := by
  induction fs generalizing v with
  | nil => rfl
  | cons d fs ih => simp only [List.map_cons, List.foldl_cons, digitOf_fin, Option.getD_some, ih]

theorem baseText_ten (t : BaseText) (h : t.Valid 10) :
    ∃ u : IntText, u.Valid ∧ u.bytes = t.bytes ∧ u.value = t.value 10 ∧ u.sign = t.sign := by
  obtain ⟨fs, hf⟩ := digits_ten t.digits h.below_base
  refine ⟨⟨t.pre, t.sign, fs, t.post⟩, ⟨h.pre, ?_, h.post⟩, ?_, ?_, rfl⟩
  · rintro rfl
    exact h.digits hf.symm
  · simp only [IntText.bytes, BaseText.bytes, hf]
  · simp only [IntText.value, BaseText.value, ← hf, digits_value, digitsValue]

theorem intText_ten (u : IntText) (h : u.Valid) :
    ∃ t : BaseText, t.Valid 10 ∧ t.bytes = u.bytes ∧ t.value 10 = u.value ∧ t.sign = u.sign := by
  refine ⟨⟨u.pre, u.sign, u.digits.map (fun d => UInt8.ofNat (48 + d.val)), u.post⟩, ⟨h.pre, ?_, ?_, h.post⟩, ?_, ?_, rfl⟩
  · intro h0
    exact h.digits (List.map_eq_nil_iff.1 h0)
  · intro c hc
    obtain ⟨d, _, rfl⟩ := List.mem_map.1 hc
    exact ⟨d.val, digitOf_fin d, d.isLt⟩
  · simp [IntText.bytes, BaseText.bytes]
  · simp only [IntText.value, BaseText.value, digits_value, digitsValue]

theorem parserOf_int (F32 F64 : FloatLib) (o : ParserOptions) (dt : DataType) (k : IntKind) (hk : intKind dt = some k)
    (s : Bytes) (v : Int) : parserOf F32 F64 o dt s = .ok (.int v) ↔ tryParseInt k s = .ok v := by
  have key : parserOf F32 F64 o dt s = (match tryParseInt k s with
      | .ok v => .ok (.int v) | .failed => .failed | .overflowed => .overflowed) := by
    cases dt <;> simp only [intKind, Option.some.injEq, reduceCtorEq] at hk <;> subst hk <;> rfl
  rw [key]
  cases tryParseInt k s <;> simp

end Mlio
