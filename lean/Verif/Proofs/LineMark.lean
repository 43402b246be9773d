import Verif.Proofs.Lines

/-! # Texts in which no line starts with the byte order mark -/

namespace Mlio

open Spec

/-- What is left after a line: nothing, or it follows a line feed or a carriage return. -/
def Behind (x rest : Bytes) : Prop :=
  rest = [] ∨ ∃ u c, (c = LF ∨ c = CR) ∧ x = u ++ c :: rest

theorem readLine_behind (x : Bytes) (m : Option Nat) (r : Record) (rest : Bytes)
    (h : readLine x false m = .got r rest) : Behind x rest := by
  cases lineForm x with
  | open_ _ hb =>
    by_cases hne : x = []
    · subst hne; simp [readLine] at h
    · rw [readLine_open x hb hne] at h
      split at h <;> simp at h
      exact Or.inl h.2
  | lf b t hb =>
    rw [readLine_lf b t hb] at h
    split at h <;> simp at h
    exact Or.inr ⟨b, LF, Or.inl rfl, by rw [h.2]⟩
  | crlf b t hb =>
    rw [readLine_crlf b t hb] at h
    split at h <;> simp at h
    exact Or.inr ⟨b ++ [CR], LF, Or.inl rfl, by rw [h.2]; simp⟩
  | cr b t hb ht =>
    rw [readLine_cr b t hb ht] at h
    split at h <;> simp at h
    exact Or.inr ⟨b, CR, Or.inr rfl, by rw [h.2]⟩

theorem csvReadLine_behind (p : CsvParams) (x : Bytes) (r : Record) (rest : Bytes)
    (h : csvReadLine p x false = .got r rest) : Behind x rest := by
  by_cases hne : x = []
  · subst hne; simp [csvReadLine] at h
  · rw [csvReadLine_eq p x false hne] at h
    cases hs : qScan p .newField 0 x with
    | newLine pos st =>
      simp only [hs] at h
      split at h
      · simp at h
      · obtain ⟨b, y, st0, _, _, hf⟩ := qScan_newLine_form p x .newField 0 pos st (by simp) hs
        simp only [Dec.got.injEq] at h
        rcases hf with ⟨rfl, rfl, _⟩ | ⟨rfl, rfl, _⟩ | ⟨rfl, _, _, rfl, _⟩
        · exact Or.inr ⟨b, LF, Or.inl rfl, by rw [← h.2]; simp [← List.drop_drop]⟩
        · exact Or.inr ⟨b ++ [CR], LF, Or.inl rfl, by rw [← h.2]; simp [← List.drop_drop]⟩
        · exact Or.inr ⟨b, CR, Or.inr rfl, by rw [← h.2]; simp [← List.drop_drop]⟩
    | fin pos st =>
      simp only [hs] at h
      split at h
      · simp at h
      · cases st <;> simp at h <;> exact Or.inl h.2

theorem noLineMark_rest {x rest : Bytes} (h : NoLineMark x) (hr : Behind x rest) : NoLineMark rest := by
  rcases hr with rfl | ⟨u, c, hc, rfl⟩
  · exact ⟨by decide, by decide, by decide⟩
  · obtain ⟨_, h2, h3⟩ := h
    refine ⟨?_, ?_, ?_⟩
    · rintro ⟨y, rfl⟩
      rcases hc with rfl | rfl
      · exact h2 ⟨u, y, by simp [LF]⟩
      · exact h3 ⟨u, y, by simp [CR]⟩
    · rintro ⟨a, y, rfl⟩
      exact h2 ⟨u ++ c :: a, y, by simp⟩
    · rintro ⟨a, y, rfl⟩
      exact h3 ⟨u ++ c :: a, y, by simp⟩

theorem noLineMark_markFree {x : Bytes} (h : NoLineMark x) (p : CsvParams) : MarkFree p x := by
  intro y hy
  induction hy with
  | refl => exact h.1
  | comment hc hr _ ih => exact ih (noLineMark_rest h (readLine_behind _ _ _ _ hr))
  | row hc hr _ ih =>
    refine ih (noLineMark_rest h ?_)
    unfold rowReader at hr
    split at hr
    · exact csvReadLine_behind _ _ _ _ hr
    · exact readLine_behind _ _ _ _ hr

theorem bomOk_of_noLineMark {x : Bytes} (h : NoLineMark x ∨ ∃ y, x = utf8Bom ++ y ∧ NoLineMark y) (p : CsvParams) :
    BomOk p x := by
  rcases h with h | ⟨y, rfl, h⟩
  · exact Or.inl (noLineMark_markFree h p)
  · exact Or.inr ⟨y, rfl, noLineMark_markFree h p⟩

/-- What is delivered line by line has no line that starts with the mark. -/
theorem LinesOk.markFree {p : CsvParams} {t : Text} (h : LinesOk p t) : MarkFree p t.bytes := by
  obtain ⟨lines, last⟩ := t
  induction lines with
  | nil =>
    obtain ⟨hd, hh, hb⟩ := h.deliver last (Or.inr rfl)
    have hbytes : Text.bytes ⟨[], last⟩ = last := by simp [Text.bytes]
    rw [hbytes]
    intro y hy
    by_cases hl : last = []
    · subst hl; exact MarkFree.nil p y hy
    · cases hy with
      | refl => exact hb
      | comment hc hr hy =>
        rw [isCommentLine_last] at hc
        rw [if_pos hc] at hd
        have := hd.2 hl
        simp only at this
        rw [this] at hr
        cases hr
        exact MarkFree.nil p y hy
      | row hc hr hy =>
        rw [isCommentLine_last] at hc
        rw [if_neg (by simp [hc])] at hd
        have := hd.2 hl
        simp only at this
        rw [this] at hr
        cases hr
        exact MarkFree.nil p y hy
  | cons l lines ih =>
    obtain ⟨b, tm⟩ := l
    obtain ⟨hd, hh, hb⟩ := h.deliver b (Or.inl (by simp))
    have hrest : LinesOk p ⟨lines, last⟩ := by
      refine ⟨?_, ?_, h.comment⟩
      · intro b' hb'
        apply h.deliver
        rcases hb' with hb' | hb'
        · left; simp at hb' ⊢; exact Or.inr hb'
        · exact Or.inr hb'
      · have := h.unambiguous
        cases tm <;> cases lines <;> simp_all [Unambiguous]
    have ih := ih hrest
    have hcr : tm = .cr → (Text.bytes ⟨lines, last⟩).head? ≠ some LF := by
      intro htm
      subst htm
      cases lines with
      | nil => simpa [Text.bytes] using (h.deliver last (Or.inr rfl)).2.1
      | cons l' lines =>
        obtain ⟨b', t'⟩ := l'
        have hh' := (h.deliver b' (Or.inl (by simp))).2.1
        have hu := h.unambiguous
        simp only [Unambiguous] at hu
        cases b' with
        | cons c b' => simpa [Text.bytes] using hh'
        | nil =>
          have : t' ≠ .lf := by simpa using hu.1
          cases t' with
          | lf => exact absurd rfl this
          | crlf => simp [Text.bytes, Term.bytes]; decide
          | cr => simp [Text.bytes, Term.bytes]; decide
    have hbytes : Text.bytes ⟨(b, tm) :: lines, last⟩ = b ++ tm.bytes ++ Text.bytes ⟨lines, last⟩ := by
      simp [Text.bytes]
    rw [hbytes]
    intro y hy
    generalize hx : b ++ tm.bytes ++ Text.bytes ⟨lines, last⟩ = x at hy
    cases hy with
    | refl => subst hx; exact fun hp => hb (bom_prefix_line b tm _ hp)
    | comment hc hr hy =>
      subst hx
      rw [isCommentLine_line p h.comment] at hc
      rw [if_pos hc] at hd
      have := hd.1 tm _ hcr
      simp only at this
      rw [this] at hr
      cases hr
      exact ih y hy
    | row hc hr hy =>
      subst hx
      rw [isCommentLine_line p h.comment] at hc
      rw [if_neg (by simp [hc])] at hd
      have := hd.1 tm _ hcr
      simp only at this
      rw [this] at hr
      cases hr
      exact ih y hy

end Mlio
