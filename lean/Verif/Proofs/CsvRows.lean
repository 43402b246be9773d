import Verif.Proofs.TextLaws
import Verif.Proofs.Tokenizer

namespace Mlio

open Spec

/-! ## Every record comes from some call of the decoder -/

theorem readCore_from_dec {ρ : Type} (dec : Bytes → Bool → Dec ρ) (f : Nat) (st : Reader) (r : ρ)
    (h : (st.readCore dec f).1 = .ok (some r)) : ∃ s ig rest, dec s ig = .got r rest := by
  induction f generalizing st with
  | zero => simp [Reader.readCore] at h
  | succ f ih =>
    simp only [Reader.readCore] at h
    cases hd : dec st.chunk (!st.cr.eof) with
    | got r' rest =>
      simp only [hd] at h
      injection h with h
      injection h with h
      subst h
      exact ⟨_, _, _, hd⟩
    | fail e rest => simp [hd] at h
    | ub w => simp [hd] at h
    | more rest k =>
      simp only [hd] at h
      split at h
      · simp at h
      · simp at h
      · split at h
        · simp at h
        · exact ih _ h

theorem readN_from_dec {ρ : Type} (dec : Bytes → Bool → Dec ρ) (n : Nat) (st : Reader) (r : ρ)
    (h : .ok (some r) ∈ st.readN dec n) : ∃ s ig rest, dec s ig = .got r rest := by
  induction n generalizing st with
  | zero => simp [Reader.readN] at h
  | succ n ih =>
    simp only [Reader.readN, List.mem_cons] at h
    rcases h with h | h
    · exact readCore_from_dec dec _ st r h.symm
    · exact ih _ h

theorem memReadCore_from_dec {ρ : Type} (dec : Bytes → Bool → Dec ρ) (f : Nat) (st : MemReader) (r : ρ)
    (h : (st.readCore dec f).1 = .ok (some r)) : ∃ s ig rest, dec s ig = .got r rest := by
  induction f generalizing st with
  | zero => simp [MemReader.readCore] at h
  | succ f ih =>
    simp only [MemReader.readCore] at h
    cases hd : dec st.chunk (!st.pending.isEmpty) with
    | got r' rest =>
      simp only [hd] at h
      injection h with h
      injection h with h
      subst h
      exact ⟨_, _, _, hd⟩
    | fail e rest => simp [hd] at h
    | ub w => simp [hd] at h
    | more rest k =>
      simp only [hd] at h
      split at h
      · simp at h
      · exact ih _ h

theorem memReadN_from_dec {ρ : Type} (dec : Bytes → Bool → Dec ρ) (n : Nat) (st : MemReader) (r : ρ)
    (h : .ok (some r) ∈ st.readN dec n) : ∃ s ig rest, dec s ig = .got r rest := by
  induction n generalizing st with
  | zero => simp [MemReader.readN] at h
  | succ n ih =>
    simp only [MemReader.readN, List.mem_cons] at h
    rcases h with h | h
    · exact memReadCore_from_dec dec _ st r h.symm
    · exact ih _ h

/-! ## Shape of what the quote-aware machine accepts -/

/-- Outside of quotes and not behind a carriage return. -/
def Unq (st : QState) : Prop := st = .newField ∨ st = .inField ∨ st = .quoteInQuoted

theorem qScan_newLine_form (p : CsvParams) (s : Bytes) (st : QState) (k pos : Nat) (st' : QState)
    (hst : st ≠ .hasCarriage) (h : qScan p st k s = .newLine pos st') :
    ∃ b x st0, Unq st0 ∧ qScan p st k b = .fin (k + b.length) st0 ∧
      ((s = b ++ LF :: x ∧ pos = k + b.length + 1 ∧ st' ≠ .hasCarriage) ∨
       (s = b ++ CR :: LF :: x ∧ pos = k + b.length + 2 ∧ st' = .hasCarriage) ∨
       (s = b ++ CR :: x ∧ x.head? ≠ some LF ∧ x ≠ [] ∧ pos = k + b.length + 1 ∧
         st' ≠ .hasCarriage)) := by
  induction s generalizing st k with
  | nil => cases st <;> simp [qScan] at h
  | cons c s ih =>
    -- a step into state `st2` that stays in the machine
    have stay : ∀ st2, st2 ≠ .hasCarriage → qScan p st2 (k + 1) s = .newLine pos st' →
        (∀ b, qScan p st k (c :: b) = qScan p st2 (k + 1) b) → ∃ b x st0, Unq st0 ∧
          qScan p st k b = .fin (k + b.length) st0 ∧
      ((c :: s = b ++ LF :: x ∧ pos = k + b.length + 1 ∧ st' ≠ .hasCarriage) ∨
       (c :: s = b ++ CR :: LF :: x ∧ pos = k + b.length + 2 ∧ st' = .hasCarriage) ∨
       (c :: s = b ++ CR :: x ∧ x.head? ≠ some LF ∧ x ≠ [] ∧ pos = k + b.length + 1 ∧
         st' ≠ .hasCarriage)) := by
      intro st2 hst2 h2 hstep
      obtain ⟨b, x, st0, hu, hb, hf⟩ := ih st2 (k + 1) hst2 h2
      refine ⟨c :: b, x, st0, hu, ?_, ?_⟩
      · rw [hstep, hb]; simp; omega
      · rcases hf with ⟨e, e2, e3⟩ | ⟨e, e2, e3⟩ | ⟨e, e4, e5, e2, e3⟩
        · left; refine ⟨by rw [e]; rfl, by simp; omega, e3⟩
        · right; left; refine ⟨by rw [e]; rfl, by simp; omega, e3⟩
        · right; right; refine ⟨by rw [e]; rfl, e4, e5, by simp; omega, e3⟩
    -- a line feed right here
    have nl : Unq st → c = LF → QScan.newLine (k + 1) st = .newLine pos st' → ∃ b x st0, Unq st0 ∧
          qScan p st k b = .fin (k + b.length) st0 ∧
      ((c :: s = b ++ LF :: x ∧ pos = k + b.length + 1 ∧ st' ≠ .hasCarriage) ∨
       (c :: s = b ++ CR :: LF :: x ∧ pos = k + b.length + 2 ∧ st' = .hasCarriage) ∨
       (c :: s = b ++ CR :: x ∧ x.head? ≠ some LF ∧ x ≠ [] ∧ pos = k + b.length + 1 ∧
         st' ≠ .hasCarriage)) := by
      intro hu hc h2
      injection h2 with h3 h4
      subst hc h3 h4
      refine ⟨[], s, st, hu, ?_, Or.inl ⟨rfl, by simp, hst⟩⟩
      cases st <;> simp [qScan]
    -- a carriage return right here
    have cr : Unq st → c = CR → qScan p .hasCarriage (k + 1) s = .newLine pos st' → ∃ b x st0, Unq st0 ∧
          qScan p st k b = .fin (k + b.length) st0 ∧
      ((c :: s = b ++ LF :: x ∧ pos = k + b.length + 1 ∧ st' ≠ .hasCarriage) ∨
       (c :: s = b ++ CR :: LF :: x ∧ pos = k + b.length + 2 ∧ st' = .hasCarriage) ∨
       (c :: s = b ++ CR :: x ∧ x.head? ≠ some LF ∧ x ≠ [] ∧ pos = k + b.length + 1 ∧
         st' ≠ .hasCarriage)) := by
      intro hu hc h2
      subst hc
      cases s with
      | nil => simp [qScan] at h2
      | cons d s =>
        simp only [qScan] at h2
        have hb : qScan p st k [] = .fin (k + ([] : Bytes).length) st := by cases st <;> simp [qScan]
        split at h2
        · rename_i hd
          injection h2 with h3 h4
          subst hd h3 h4
          exact ⟨[], s, st, hu, hb, Or.inr (Or.inl ⟨rfl, by simp, rfl⟩)⟩
        · rename_i hd
          injection h2 with h3 h4
          subst h3 h4
          exact ⟨[], d :: s, st, hu, hb, Or.inr (Or.inr ⟨rfl, by simpa using hd, by simp, by simp, by simp⟩)⟩
    cases st with
    | hasCarriage => exact absurd rfl hst
    | newField =>
      have h' := h
      simp only [qScan] at h'
      by_cases c1 : c = p.delimiter
      · rw [if_pos c1] at h'
        exact stay _ (by simp) h' (by intro b; simp [qScan, c1])
      · rw [if_neg c1] at h'
        by_cases c2 : c = p.quote
        · rw [if_pos c2] at h'
          exact stay _ (by simp) h' (by intro b; simp only [qScan]; rw [if_neg c1, if_pos c2])
        · rw [if_neg c2] at h'
          by_cases c3 : c = LF
          · rw [if_pos c3] at h'
            exact nl (Or.inl rfl) c3 h'
          · rw [if_neg c3] at h'
            by_cases c4 : c = CR
            · rw [if_pos c4] at h'
              exact cr (Or.inl rfl) c4 h'
            · rw [if_neg c4] at h'
              exact stay _ (by simp) h' (by intro b; simp only [qScan]; rw [if_neg c1, if_neg c2, if_neg c3, if_neg c4])
    | inField =>
      have h' := h
      simp only [qScan] at h'
      by_cases c1 : c = p.delimiter
      · rw [if_pos c1] at h'
        exact stay _ (by simp) h' (by intro b; simp [qScan, c1])
      · rw [if_neg c1] at h'
        by_cases c3 : c = LF
        · rw [if_pos c3] at h'
          exact nl (Or.inr (Or.inl rfl)) c3 h'
        · rw [if_neg c3] at h'
          by_cases c4 : c = CR
          · rw [if_pos c4] at h'
            exact cr (Or.inr (Or.inl rfl)) c4 h'
          · rw [if_neg c4] at h'
            exact stay _ (by simp) h' (by intro b; simp only [qScan]; rw [if_neg c1, if_neg c3, if_neg c4])
    | inQuoted =>
      have h' := h
      simp only [qScan] at h'
      by_cases c2 : c = p.quote
      · rw [if_pos c2] at h'
        exact stay _ (by simp) h' (by intro b; simp only [qScan]; rw [if_pos c2])
      · rw [if_neg c2] at h'
        exact stay _ (by simp) h' (by intro b; simp only [qScan]; rw [if_neg c2])
    | quoteInQuoted =>
      have h' := h
      simp only [qScan] at h'
      by_cases c1 : c = p.delimiter
      · rw [if_pos c1] at h'
        exact stay _ (by simp) h' (by intro b; simp [qScan, c1])
      · rw [if_neg c1] at h'
        by_cases c2 : c = p.quote
        · rw [if_pos c2] at h'
          exact stay _ (by simp) h' (by intro b; simp only [qScan]; rw [if_neg c1, if_pos c2])
        · rw [if_neg c2] at h'
          by_cases c3 : c = LF
          · rw [if_pos c3] at h'
            exact nl (Or.inr (Or.inr rfl)) c3 h'
          · rw [if_neg c3] at h'
            by_cases c4 : c = CR
            · rw [if_pos c4] at h'
              exact cr (Or.inr (Or.inr rfl)) c4 h'
            · rw [if_neg c4] at h'
              exact stay _ (by simp) h' (by intro b; simp only [qScan]; rw [if_neg c1, if_neg c2, if_neg c3, if_neg c4])

theorem qScan_fin_carriage_form (p : CsvParams) (s : Bytes) (st : QState) (k pos : Nat)
    (hst : st ≠ .hasCarriage) (h : qScan p st k s = .fin pos .hasCarriage) :
    ∃ b st0, Unq st0 ∧ s = b ++ [CR] ∧ qScan p st k b = .fin (k + b.length) st0 := by
  -- look at the last character
  rcases List.eq_nil_or_concat s with rfl | ⟨b, c, rfl⟩
  · cases st <;> simp [qScan] at h; simp at hst
  · rw [List.concat_eq_append, qScan_append] at h
    cases hb : qScan p st k b with
    | newLine pos' st' => simp [hb] at h
    | fin pos' st' =>
      simp only [hb] at h
      have hpos := qScan_fin_pos p b _ _ _ _ hb
      subst hpos
      refine ⟨b, st', ?_, ?_, hb⟩
      · unfold Unq
        cases st' <;> simp only [qScan] at h <;> (repeat' split at h) <;> simp_all
      · cases st' <;> simp only [qScan] at h <;> (repeat' split at h) <;> simp_all

/-! ## The tokenizer follows the row machine -/

def toT : QState → TState
  | .newField => .newField
  | .inField => .inField
  | .inQuoted => .inQuoted
  | .quoteInQuoted => .quoteInQuoted
  | .hasCarriage => .newField

theorem fieldsFrom_of_qScan (p : CsvParams) (tp : TokParams) (hd : tp.delimiter = p.delimiter)
    (hq : tp.quote = p.quote) (b : Bytes) (st st0 : QState) (k pos : Nat) (v : Bytes × Bool)
    (hst : st ≠ .hasCarriage) (h0 : Unq st0) (h : qScan p st k b = .fin pos st0) :
    (fieldsFrom tp (toT st) v b).2 = .ok () := by
  induction b generalizing st k v with
  | nil =>
    have : st = st0 := by cases st <;> simp [qScan] at h <;> simp [h]
    subst this
    rcases h0 with rfl | rfl | rfl <;> simp [fieldsFrom, tokScan, toT]
  | cons c b ih =>
    have nocarriage : ∀ k, qScan p .hasCarriage k b = .fin pos st0 → False := by
      intro k hh
      cases b with
      | nil => simp [qScan] at hh; rcases h0 with h0 | h0 | h0 <;> simp [h0] at hh
      | cons d b => simp only [qScan] at hh; split at hh <;> simp at hh
    have step : ∀ st2 v', st2 ≠ .hasCarriage → qScan p st2 (k + 1) b = .fin pos st0 →
        fieldsFrom tp (toT st) v (c :: b) = fieldsFrom tp (toT st2) v' b →
        (fieldsFrom tp (toT st) v (c :: b)).2 = .ok () := by
      intro st2 v' h2 h3 h4
      rw [h4]; exact ih st2 (k + 1) v' h2 h3
    cases st with
    | hasCarriage => exact absurd rfl hst
    | newField =>
      simp only [qScan] at h
      by_cases c1 : c = p.delimiter
      · rw [if_pos c1] at h
        subst c1
        rw [← hd, toT, fieldsFrom_delim tp _ _ _ (by simp)]
        simp only
        rw [tokenize_eq]
        exact ih .newField _ _ (by simp) h
      · rw [if_neg c1] at h
        by_cases c2 : c = p.quote
        · rw [if_pos c2] at h
          refine step .inQuoted v (by simp) h ?_
          simp [fieldsFrom, tokScan, toT, hd, hq, c1, c2]
          simp [c2 ▸ c1]
        · rw [if_neg c2] at h
          by_cases c3 : c = LF
          · rw [if_pos c3] at h; simp at h
          · rw [if_neg c3] at h
            by_cases c4 : c = CR
            · rw [if_pos c4] at h; exact absurd h (nocarriage _)
            · rw [if_neg c4] at h
              refine step .inField (pushChar tp v c) (by simp) h ?_
              simp [fieldsFrom, tokScan, toT, hd, hq, c1, c2]
    | inField =>
      simp only [qScan] at h
      by_cases c1 : c = p.delimiter
      · rw [if_pos c1] at h
        subst c1
        rw [← hd, toT, fieldsFrom_delim tp _ _ _ (by simp)]
        simp only
        rw [tokenize_eq]
        exact ih .newField _ _ (by simp) h
      · rw [if_neg c1] at h
        by_cases c3 : c = LF
        · rw [if_pos c3] at h; simp at h
        · rw [if_neg c3] at h
          by_cases c4 : c = CR
          · rw [if_pos c4] at h; exact absurd h (nocarriage _)
          · rw [if_neg c4] at h
            refine step .inField (pushChar tp v c) (by simp) h ?_
            simp [fieldsFrom, tokScan, toT, hd, c1]
    | inQuoted =>
      simp only [qScan] at h
      by_cases c2 : c = p.quote
      · rw [if_pos c2] at h
        refine step .quoteInQuoted v (by simp) h ?_
        simp [fieldsFrom, tokScan, toT, hq, c2]
      · rw [if_neg c2] at h
        refine step .inQuoted (pushChar tp v c) (by simp) h ?_
        simp [fieldsFrom, tokScan, toT, hq, c2]
    | quoteInQuoted =>
      simp only [qScan] at h
      by_cases c1 : c = p.delimiter
      · rw [if_pos c1] at h
        subst c1
        rw [← hd, toT, fieldsFrom_delim tp _ _ _ (by simp)]
        simp only
        rw [tokenize_eq]
        exact ih .newField _ _ (by simp) h
      · rw [if_neg c1] at h
        by_cases c2 : c = p.quote
        · rw [if_pos c2] at h
          refine step .inQuoted (pushChar tp v c) (by simp) h ?_
          simp [fieldsFrom, tokScan, toT, hd, hq, c2]
          simp [c2 ▸ c1]
        · rw [if_neg c2] at h
          by_cases c3 : c = LF
          · rw [if_pos c3] at h; simp at h
          · rw [if_neg c3] at h
            by_cases c4 : c = CR
            · rw [if_pos c4] at h; exact absurd h (nocarriage _)
            · rw [if_neg c4] at h
              refine step .inField (pushChar tp v c) (by simp) h ?_
              simp [fieldsFrom, tokScan, toT, hd, hq, c1, c2]

/-- The payload of a row read by the quote-aware reader ends outside of quotes. -/
theorem csvReadLine_payload (p : CsvParams) (s : Bytes) (ig : Bool) (r : Record) (rest : Bytes)
    (h : csvReadLine p s ig = .got r rest) :
    ∃ st0, Unq st0 ∧ qScan p .newField 0 r.payload = .fin r.payload.length st0 := by
  have hne : s ≠ [] := by
    rintro rfl
    rw [csvReadLine_nil] at h
    split at h <;> simp at h
  rw [csvReadLine_eq p s ig hne] at h
  cases hq : qScan p .newField 0 s with
  | newLine pos st' =>
    simp only [hq] at h
    split at h
    · simp at h
    · injection h with h1 h2
      obtain ⟨b, x, st0, hu, hb, hf⟩ := qScan_newLine_form p s _ _ _ _ (by simp) hq
      refine ⟨st0, hu, ?_⟩
      have hp : r.payload = b := by
        rw [← h1]
        simp only [Nat.zero_add] at hf
        rcases hf with ⟨e, e2, e3⟩ | ⟨e, e2, e3⟩ | ⟨e, _, _, e2, e3⟩
        · simp only [if_neg e3, e2, e, Nat.add_sub_cancel]; simp
        · simp only [if_pos e3, e2, e, Nat.add_sub_cancel]; simp
        · simp only [if_neg e3, e2, e, Nat.add_sub_cancel]; simp
      rw [hp, hb]; simp
  | fin pos st' =>
    simp only [hq] at h
    have hpos := qScan_fin_pos p s _ _ _ _ hq
    rw [Nat.zero_add] at hpos
    subst hpos
    split at h
    · simp at h
    · split at h
      · simp at h
      · split at h <;> first
        | simp at h
          done
        | (injection h with h1 h2
           subst h1 h2
           first
           | exact ⟨_, Or.inl rfl, hq⟩
           | exact ⟨_, Or.inr (Or.inl rfl), hq⟩
           | exact ⟨_, Or.inr (Or.inr rfl), hq⟩
           | (obtain ⟨b, st0, hu, hs, hb⟩ := qScan_fin_carriage_form p s _ _ _ (by simp) hq
              refine ⟨st0, hu, ?_⟩
              subst hs
              simpa using hb))

/-- A row of the CSV reader comes from the row reader. -/
theorem csvDecodeText_row (p : CsvParams) (ig : Bool) (r : Record) :
    ∀ (c rest : Bytes), csvDecodeText p c ig = .got r rest →
      ∃ c' rest', rowReader p c' ig = .got r rest' ∧ isCommentLine p c' = false ∧
        (p.skipBlank = true → r.payload ≠ []) := by
  intro c
  induction hn : c.length using Nat.strongRecOn generalizing c with
  | _ n ih =>
    intro rest h
    by_cases hne : c = []
    · subst hne; simp [csvDecodeText_nil] at h
    · rw [csvDecodeText_eq p c ig hne] at h
      split at h
      · cases hr : readLine c ig none with
        | got r' rest' =>
          simp only [hr] at h
          exact ih rest'.length (by have := (readLine_got_suffix _ _ _ _ _ hr).2; omega) rest' rfl rest h
        | _ => simp [hr] at h
      · rename_i hc
        cases hr : rowReader p c ig with
        | got r' rest' =>
          simp only [hr] at h
          split at h
          · rename_i hs
            injection h with h1 h2
            subst h1 h2
            refine ⟨c, rest', hr, by simpa using hc, ?_⟩
            intro hsk hp
            simp [hsk, hp] at hs
          · exact ih rest'.length (by have := (rowReader_got_suffix _ _ _ _ _ hr).2; omega) rest' rfl rest h
        | _ => simp [hr] at h

theorem csvDecode_row (p : CsvParams) (ig : Bool) (r : Record) (c rest : Bytes)
    (h : csvDecode p c ig = .got r rest) :
    ∃ c' rest', rowReader p c' ig = .got r rest' ∧ isCommentLine p c' = false ∧
      (p.skipBlank = true → r.payload ≠ []) := by
  unfold csvDecode textRecord at h
  split at h
  · simp at h
  · split at h
    · exact csvDecodeText_row p ig r _ _ h
    · simp at h

/-! ## Written rows -/

theorem qScan_inField_plain (p : CsvParams) (w : Bytes) (hd : p.delimiter ∉ w) (hp : Plain w)
    (k : Nat) : qScan p .inField k w = .fin (k + w.length) .inField := by
  induction w generalizing k with
  | nil => simp [qScan]
  | cons c w ih =>
    simp only [List.mem_cons, not_or] at hd
    have hc := hp c (by simp)
    simp only [qScan]
    rw [if_neg (Ne.symm hd.1), if_neg hc.1, if_neg hc.2,
      ih hd.2 (fun x hx => hp x (by simp [hx]))]
    simp; omega

theorem qScan_escape (p : CsvParams) (hdq : p.delimiter ≠ p.quote) (w : Bytes) (k : Nat) :
    qScan p .inQuoted k (escape p.quote w ++ [p.quote]) =
      .fin (k + (escape p.quote w).length + 1) .quoteInQuoted := by
  induction w generalizing k with
  | nil => simp [escape, qScan]
  | cons c w ih =>
    by_cases hc : c = p.quote
    · subst hc
      simp only [escape, if_true, List.cons_append, qScan, Ne.symm hdq, if_false]
      rw [ih]; simp; omega
    · simp only [escape, hc, if_false, List.cons_append, qScan]
      rw [ih]; simp; omega

theorem qScan_field (p : CsvParams) (hdq : p.delimiter ≠ p.quote)
    (f : Field) (hf : f.Ok p.delimiter p.quote) (hb : f.NoBreak) (k : Nat) :
    ∃ st0, Unq st0 ∧ qScan p .newField k (f.bytes p.quote) = .fin (k + (f.bytes p.quote).length) st0 := by
  obtain ⟨w, quoted⟩ := f
  cases quoted with
  | true =>
    refine ⟨.quoteInQuoted, Or.inr (Or.inr rfl), ?_⟩
    simp only [Field.bytes, if_true, List.cons_append, qScan, Ne.symm hdq, if_false]
    rw [qScan_escape p hdq]; simp; omega
  | false =>
    simp only [Field.Ok, Field.NoBreak, Bool.false_eq_true, false_or] at hf hb
    cases w with
    | nil => exact ⟨.newField, Or.inl rfl, by simp [Field.bytes, qScan]⟩
    | cons c w =>
      simp only [List.head?_cons, ne_eq, Option.some.injEq, List.mem_cons, not_or] at hf
      have hc := hb c (by simp)
      refine ⟨.inField, Or.inr (Or.inl rfl), ?_⟩
      simp only [Field.bytes, Bool.false_eq_true, if_false, qScan]
      rw [if_neg (Ne.symm hf.1.1), if_neg hf.2, if_neg hc.1, if_neg hc.2,
        qScan_inField_plain p w hf.1.2 (fun x hx => hb x (by simp [hx]))]
      simp; omega

theorem qScan_row (p : CsvParams) (hdq : p.delimiter ≠ p.quote)
    (fs : List Field) (hf : ∀ f ∈ fs, f.Ok p.delimiter p.quote ∧ f.NoBreak) (k : Nat) :
    ∃ st0, Unq st0 ∧ qScan p .newField k (rowBytes p.delimiter p.quote fs) =
      .fin (k + (rowBytes p.delimiter p.quote fs).length) st0 := by
  induction fs generalizing k with
  | nil => exact ⟨.newField, Or.inl rfl, by simp [rowBytes, qScan]⟩
  | cons f fs ih =>
    obtain ⟨st1, hu1, h1⟩ := qScan_field p hdq f (hf f (by simp)).1 (hf f (by simp)).2 k
    cases fs with
    | nil => exact ⟨st1, hu1, by simpa [rowBytes] using h1⟩
    | cons g gs =>
      obtain ⟨st2, hu2, h2⟩ := ih (fun x hx => hf x (by simp [hx])) (k + (f.bytes p.quote).length + 1)
      refine ⟨st2, hu2, ?_⟩
      have hr : rowBytes p.delimiter p.quote (f :: g :: gs) =
          f.bytes p.quote ++ p.delimiter :: rowBytes p.delimiter p.quote (g :: gs) := by
        rw [rowBytes]; simp
      rw [hr, qScan_append, h1]
      simp only
      have : qScan p st1 (k + (f.bytes p.quote).length)
          (p.delimiter :: rowBytes p.delimiter p.quote (g :: gs)) =
          qScan p .newField (k + (f.bytes p.quote).length + 1) (rowBytes p.delimiter p.quote (g :: gs)) := by
        rcases hu1 with rfl | rfl | rfl <;> simp [qScan]
      rw [this, h2]
      simp; omega

/-- The row reader on a row that ends outside of quotes, followed by a terminator. -/
theorem csvReadLine_term_max (p : CsvParams)
    (hd : p.delimiter ≠ LF ∧ p.delimiter ≠ CR) (hq : p.quote ≠ LF ∧ p.quote ≠ CR)
    (b : Bytes) (st0 : QState) (hu : Unq st0) (hb : qScan p .newField 0 b = .fin b.length st0)
    (t : Term) (x : Bytes) (hx : t = .cr → x.head? ≠ some LF) :
    csvReadLine p (b ++ t.bytes ++ x) false =
      if tooLong p.maxLine (b.length + t.bytes.length) then .fail .recordTooLarge (b ++ t.bytes ++ x)
      else .got ⟨0, b⟩ x := by
  have hlf : ∀ k y, qScan p st0 k (LF :: y) = .newLine (k + 1) st0 := by
    intro k y
    rcases hu with rfl | rfl | rfl <;> simp [qScan, Ne.symm hd.1, Ne.symm hq.1]
  have hcr : ∀ k y, qScan p st0 k (CR :: y) = qScan p .hasCarriage (k + 1) y := by
    intro k y
    rcases hu with rfl | rfl | rfl <;>
      simp [qScan, Ne.symm hd.2, Ne.symm hq.2, show ¬ (CR = LF) by decide]
  have hnc : st0 ≠ .hasCarriage := by rcases hu with rfl | rfl | rfl <;> simp
  rw [csvReadLine_eq p _ _ (by cases t <;> simp [Term.bytes]), List.append_assoc, qScan_append, hb]
  cases t with
  | lf =>
    simp only [Term.bytes, List.cons_append, List.nil_append]
    rw [show (10 : UInt8) = LF from rfl, hlf]
    simp [hnc, ← List.drop_drop]
  | crlf =>
    simp only [Term.bytes, List.cons_append, List.nil_append]
    rw [show (10 : UInt8) = LF from rfl, show (13 : UInt8) = CR from rfl, hcr]
    simp [qScan]
    rw [show b.length + 1 + 1 = b.length + 2 from rfl]
    simp
  | cr =>
    simp only [Term.bytes, List.cons_append, List.nil_append]
    rw [show (13 : UInt8) = CR from rfl, hcr]
    cases x with
    | nil => simp [qScan]
    | cons c x =>
      have := hx rfl
      simp at this
      simp [qScan, this, ← List.drop_drop]

theorem csvReadLine_last_max (p : CsvParams)
    (b : Bytes) (hne : b ≠ []) (st0 : QState) (hu : Unq st0)
    (hb : qScan p .newField 0 b = .fin b.length st0) :
    csvReadLine p b false =
      if tooLong p.maxLine b.length then .fail .recordTooLarge b else .got ⟨0, b⟩ [] := by
  rw [csvReadLine_eq p _ _ hne, hb]
  rcases hu with rfl | rfl | rfl <;> simp

theorem csvReadLine_term (p : CsvParams) (hm : p.maxLine = none)
    (hd : p.delimiter ≠ LF ∧ p.delimiter ≠ CR) (hq : p.quote ≠ LF ∧ p.quote ≠ CR)
    (b : Bytes) (st0 : QState) (hu : Unq st0) (hb : qScan p .newField 0 b = .fin b.length st0)
    (t : Term) (x : Bytes) (hx : t = .cr → x.head? ≠ some LF) :
    csvReadLine p (b ++ t.bytes ++ x) false = .got ⟨0, b⟩ x := by
  rw [csvReadLine_term_max p hd hq b st0 hu hb t x hx, hm]
  simp [tooLong]

theorem csvReadLine_last (p : CsvParams) (hm : p.maxLine = none)
    (b : Bytes) (hne : b ≠ []) (st0 : QState) (hu : Unq st0)
    (hb : qScan p .newField 0 b = .fin b.length st0) :
    csvReadLine p b false = .got ⟨0, b⟩ [] := by
  rw [csvReadLine_last_max p b hne st0 hu hb, hm]
  simp [tooLong]

end Mlio
