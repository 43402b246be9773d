import Verif.Spec.RetryText
import Verif.Proofs.LineMark
import Verif.Props.Retry

namespace Mlio
open Spec Machine

theorem streamMachine_outs (dec : Bytes → Bool → Dec Record) (st : Reader) (n : Nat) :
    (streamMachine dec).outs n st = st.readN dec n := by
  induction n generalizing st with
  | zero => rfl
  | succ n ih => exact congrArg (_ :: ·) (ih _)

theorem memoryMachine_outs (dec : Bytes → Bool → Dec Record) (st : MemReader) (n : Nat) :
    (memoryMachine dec).outs n st = MemReader.readN dec n st := by
  induction n generalizing st with
  | zero => rfl
  | succ n ih => exact congrArg (_ :: ·) (ih _)

/-- Outcomes of reading at once that last. -/
theorem wholeN_stays {dec : Bytes → Bool → Dec Record} {G : Bytes → Prop}
    (hgot : ∀ x r rest, G x → dec x false = .got r rest → G rest)
    (hfail : ∀ x e rest, G x → dec x false = .fail e rest → dec rest false = .fail e rest)
    (hempty : ∃ k, dec [] false = .more [] k) {t : Res (Option Record)} (ht : t = .ok none ∨ ∃ e, t = .err e) :
    ∀ (i j : Nat) (x : Bytes), G x → i ≤ j → (wholeN dec (j + 1) x)[i]? = some t → (wholeN dec (j + 1) x)[j]? = some t
  | 0, j, x, hx, _, h => by
    obtain ⟨k0, hempty⟩ := hempty
    have h1 : (wholeStep dec x).1 = t := by simpa [wholeN] using h
    have h2 : ∃ y, (wholeStep dec x).2 = y ∧ (wholeStep dec y) = (t, y) := by
      unfold wholeStep at h1 ⊢
      cases hd : dec x false with
      | got r rest => rw [hd] at h1; rcases ht with rfl | ⟨e, rfl⟩ <;> simp at h1
      | ub w => rw [hd] at h1; rcases ht with rfl | ⟨e, rfl⟩ <;> simp at h1
      | fail e rest =>
        rw [hd] at h1
        exact ⟨rest, rfl, by rw [hfail x e rest hx hd]; simpa using h1⟩
      | more rest hint =>
        rw [hd] at h1
        exact ⟨[], rfl, by rw [hempty]; simpa using h1⟩
    obtain ⟨y, hy, hs⟩ := h2
    have key : ∀ n, wholeN dec n y = List.replicate n t := by
      intro n
      induction n with
      | zero => rfl
      | succ n ih => simp [wholeN, hs, ih, List.replicate_succ]
    cases j with
    | zero => exact h
    | succ j =>
      rw [show wholeN dec (j + 1 + 1) x = (wholeStep dec x).1 :: wholeN dec (j + 1) (wholeStep dec x).2 from rfl, hy, key]
      simp
  | i + 1, 0, x, _, h, _ => by omega
  | i + 1, j + 1, x, hx, h, hi => by
    have e : wholeN dec (j + 1 + 1) x = (wholeStep dec x).1 :: wholeN dec (j + 1) (wholeStep dec x).2 := rfl
    rw [e, List.getElem?_cons_succ] at hi ⊢
    cases hd : dec x false with
    | got r rest =>
      have : (wholeStep dec x).2 = rest := by simp [wholeStep, hd]
      rw [this] at hi ⊢
      exact wholeN_stays hgot hfail hempty ht i j rest (hgot x r rest hx hd) (by omega) hi
    | fail er rest =>
      have hf := hfail x er rest hx hd
      have h2 : (wholeStep dec x).2 = rest := by simp [wholeStep, hd]
      have hs : wholeStep dec rest = (.err er, rest) := by simp [wholeStep, hf]
      have key : ∀ n, wholeN dec n rest = List.replicate n (.err er) := by
        intro n
        induction n with
        | zero => rfl
        | succ n ih => simp [wholeN, hs, ih, List.replicate_succ]
      rw [h2, key] at hi ⊢
      rw [List.getElem?_replicate] at hi ⊢
      simp at hi ⊢
      exact hi.2
    | more rest hint =>
      obtain ⟨k0, hempty⟩ := hempty
      have h2 : (wholeStep dec x).2 = [] := by simp [wholeStep, hd]
      have hs : wholeStep dec [] = (.ok none, []) := by simp [wholeStep, hempty]
      have key : ∀ n, wholeN dec n [] = List.replicate n (.ok none) := by
        intro n
        induction n with
        | zero => rfl
        | succ n ih => simp [wholeN, hs, ih, List.replicate_succ]
      rw [h2, key] at hi ⊢
      rw [List.getElem?_replicate] at hi ⊢
      simp at hi ⊢
      exact hi.2
    | ub w =>
      have h2 : (wholeStep dec x).2 = x := by simp [wholeStep, hd]
      rw [h2] at hi ⊢
      have key : ∀ n, wholeN dec n x = List.replicate n (.ub w) := by
        intro n
        induction n with
        | zero => rfl
        | succ n ih => simp [wholeN, wholeStep, hd, List.replicate_succ]; exact ih
      rw [key, List.getElem?_replicate] at hi ⊢
      simp at hi ⊢
      exact hi.2

/-- Decoding rows fails again where it failed. -/
theorem csvDecodeText_refail (p : CsvParams) (ig : Bool) : ∀ z rest e, csvDecodeText p z ig = .fail e rest →
    csvDecodeText p rest ig = .fail e rest := by
  intro z
  induction hn : z.length using Nat.strongRecOn generalizing z with
  | _ n ih =>
    intro rest e h0
    have h := h0
    by_cases hne : z = []
    · subst hne
      rw [csvDecodeText_nil] at h
      simp at h
    · rw [csvDecodeText_eq p z ig hne] at h
      by_cases hc : isCommentLine p z = true
      · simp only [hc, if_true] at h
        cases hr : readLine z ig none with
        | got r0 rest0 =>
          obtain ⟨hs, hl⟩ := readLine_got_suffix _ _ _ _ _ hr
          simp only [hr] at h
          exact ih rest0.length (by omega) rest0 rfl rest e h
        | more rest0 k => simp only [hr] at h; simp at h
        | fail e0 rest0 =>
          simp only [hr] at h
          have h1 := readLine_fail_eq _ _ _ _ _ hr
          simp at h
          have hz : rest = z := h.2.symm.trans h1
          rw [hz] at h0 ⊢
          exact h0
        | ub w => exact absurd hr (readLine_noub _ _ _ _)
      · simp only [hc, if_false, Bool.false_eq_true] at h
        cases hr : rowReader p z ig with
        | got r0 rest0 =>
          obtain ⟨hs, hl⟩ := rowReader_got_suffix _ _ _ _ _ hr
          simp only [hr] at h
          split at h
          · simp at h
          · exact ih rest0.length (by omega) rest0 rfl rest e h
        | more rest0 k => simp only [hr] at h; simp at h
        | fail e0 rest0 =>
          simp only [hr] at h
          have h1 := rowReader_fail_eq _ _ _ _ _ hr
          simp at h
          have hz : rest = z := h.2.symm.trans h1
          rw [hz] at h0 ⊢
          exact h0
        | ub w => exact absurd hr (rowReader_noub _ _ _ _)

theorem bomOk_after (p : CsvParams) (x rest : Bytes) (hg : BomOk p x)
    (h : (∃ r, csvDecode p x false = .got r rest) ∨ (∃ e, csvDecode p x false = .fail e rest)) : MarkFree p rest := by
  rcases hg with hb | ⟨y, rfl, hy⟩
  · rw [csvDecode_nobom p x hb.start] at h
    exact csvDecodeText_markFree_end p x hb rest h
  · rw [csvDecode_bom] at h
    exact csvDecodeText_markFree_end p y hy rest h

theorem csvDecode_refail (p : CsvParams) (x rest : Bytes) (e : Err) (hg : BomOk p x) (h : csvDecode p x false = .fail e rest) :
    csvDecode p rest false = .fail e rest := by
  have hm := bomOk_after p x rest hg (.inr ⟨e, h⟩)
  rw [csvDecode_nobom p rest hm.start]
  rcases hg with hb | ⟨y, rfl, hy⟩
  · rw [csvDecode_nobom p x hb.start] at h
    exact csvDecodeText_refail p false _ _ _ h
  · rw [csvDecode_bom] at h
    exact csvDecodeText_refail p false _ _ _ h

theorem csv_whole_stays (p : CsvParams) {t : Res (Option Record)} (ht : t = .ok none ∨ ∃ e, t = .err e) (i j : Nat) (x : Bytes)
    (hx : BomOk p x) (hij : i ≤ j) (h : (wholeN (csvDecode p) (j + 1) x)[i]? = some t) :
    (wholeN (csvDecode p) (j + 1) x)[j]? = some t := by
  refine wholeN_stays (G := BomOk p) (fun x r rest hx hd => .inl (bomOk_after p x rest hx (.inl ⟨r, hd⟩)))
    (fun x e rest hx hd => csvDecode_refail p x rest e hx hd) ⟨0, ?_⟩ ht i j x hx hij h
  rfl

end Mlio
