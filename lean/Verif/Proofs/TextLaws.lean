import Verif.Proofs.Text

/-! The text decoders satisfy the laws of `Verif/Proofs/StreamReader.lean`. -/

namespace Mlio

/-! ## `csvReadLine` -/

theorem csvReadLine_eq (p : CsvParams) (c : Bytes) (ig : Bool) (hne : c ≠ []) :
    csvReadLine p c ig =
      match qScan p .newField 0 c with
      | .newLine pos st =>
        if tooLong p.maxLine pos then .fail .recordTooLarge c
        else .got ⟨0, c.take (if st = .hasCarriage then pos - 2 else pos - 1)⟩ (c.drop pos)
      | .fin pos st =>
        if tooLong p.maxLine pos then .fail .recordTooLarge c
        else if ig then .more c 0
        else
          match st with
          | .newField | .inField | .quoteInQuoted => .got ⟨0, c⟩ []
          | .hasCarriage => .got ⟨0, c.take (c.length - 1)⟩ []
          | .inQuoted => .fail .corruptRecord c := by
  have he : c.isEmpty = false := by cases c <;> simp_all
  simp only [csvReadLine, he]
  cases hq : qScan p .newField 0 c with
  | newLine pos st =>
    have hpos := qScan_newLine_pos p c _ _ _ _ hq
    simp at hpos
    have h1 : (if st = .hasCarriage then pos - 2 else pos - 1) ≤ c.length := by split <;> omega
    have h2 : pos ≤ c.length := hpos.1
    simp only [sliceFirst, subsliceFrom, h1, h2, if_true, Bool.false_eq_true, if_false]
  | fin pos st =>
    cases st <;> simp [sliceFirst]

theorem csvReadLine_nil (p : CsvParams) (ig : Bool) :
    csvReadLine p [] ig = if ig then .more [] 0 else .fail .corruptRecord [] := by
  simp [csvReadLine]

theorem csvReadLine_noub (p : CsvParams) (c : Bytes) (ig : Bool) (w : String) :
    csvReadLine p c ig ≠ .ub w := by
  by_cases hne : c = []
  · subst hne; rw [csvReadLine_nil]; split <;> simp
  · rw [csvReadLine_eq p c ig hne]
    split
    · split <;> simp
    · split
      · simp
      · split
        · simp
        · split <;> simp

theorem csvReadLine_got_suffix (p : CsvParams) (c : Bytes) (ig : Bool) (r : Record) (rest : Bytes)
    (h : csvReadLine p c ig = .got r rest) : rest <:+ c ∧ rest.length < c.length := by
  have hne : c ≠ [] := by
    rintro rfl
    rw [csvReadLine_nil] at h
    split at h <;> simp at h
  have hlen : 0 < c.length := by cases c <;> simp_all
  rw [csvReadLine_eq p c ig hne] at h
  split at h
  · rename_i pos st hq
    have hpos := qScan_newLine_pos p c _ _ _ _ hq
    simp at hpos
    split at h
    · simp at h
    · injection h with _ h2
      subst h2
      refine ⟨List.drop_suffix _ _, ?_⟩
      simp; omega
  · split at h
    · simp at h
    · split at h
      · simp at h
      · split at h <;> first
          | (injection h with _ h2; subst h2; exact ⟨List.nil_suffix, by simpa using hlen⟩)
          | simp at h

theorem csvReadLine_more_eq (p : CsvParams) (c : Bytes) (ig : Bool) (rest : Bytes) (k : Nat)
    (h : csvReadLine p c ig = .more rest k) : rest = c ∧ k = 0 ∧ ig = true := by
  by_cases hne : c = []
  · subst hne
    rw [csvReadLine_nil] at h
    cases ig <;> simp at h
    exact ⟨h.1, h.2.symm, rfl⟩
  · rw [csvReadLine_eq p c ig hne] at h
    split at h
    · split at h <;> simp at h
    · split at h
      · simp at h
      · split at h
        · rename_i hig
          injection h with h1 h2
          exact ⟨h1.symm, h2.symm, hig⟩
        · split at h <;> simp at h

theorem csvReadLine_fail_eq (p : CsvParams) (c : Bytes) (ig : Bool) (rest : Bytes) (e : Err)
    (h : csvReadLine p c ig = .fail e rest) : rest = c := by
  by_cases hne : c = []
  · subst hne
    rw [csvReadLine_nil] at h
    cases ig <;> simp at h
    exact h.2
  · rw [csvReadLine_eq p c ig hne] at h
    split at h
    · split at h
      · injection h with _ h2; exact h2.symm
      · simp at h
    · split at h
      · injection h with _ h2; exact h2.symm
      · split at h
        · simp at h
        · split at h <;> first | (injection h with _ h2; exact h2.symm) | simp at h

theorem csvReadLine_got_append (p : CsvParams) (s t : Bytes) (ig' : Bool) (r : Record)
    (rest : Bytes) (h : csvReadLine p s true = .got r rest) :
    csvReadLine p (s ++ t) ig' = .got r (rest ++ t) := by
  have hne : s ≠ [] := by
    rintro rfl
    rw [csvReadLine_nil] at h
    simp at h
  rw [csvReadLine_eq p s true hne] at h
  rw [csvReadLine_eq p (s ++ t) ig' (by simp [hne]), qScan_append]
  cases hq : qScan p .newField 0 s with
  | newLine pos st =>
    have hpos := qScan_newLine_pos p s _ _ _ _ hq
    simp at hpos
    simp only [hq] at h
    split at h
    · simp at h
    · rename_i hm
      injection h with h1 h2
      subst h1 h2
      simp only [hm, if_false, Bool.false_eq_true]
      rw [List.drop_append_of_le_length hpos.1, List.take_append_of_le_length (by split <;> omega)]
  | fin pos st =>
    simp only [hq] at h
    split at h <;> simp at h

theorem qScan_pos_ge (p : CsvParams) (st : QState) (k : Nat) (x : Bytes) :
    (match qScan p st k x with | .newLine pos _ => k ≤ pos | .fin pos _ => k ≤ pos) := by
  cases hq : qScan p st k x with
  | newLine pos st' => exact (qScan_newLine_pos p x _ _ _ _ hq).2.2.2.2
  | fin pos st' => have := qScan_fin_pos p x _ _ _ _ hq; simp only; omega

theorem csvReadLine_fail_append (p : CsvParams) (s t : Bytes) (ig' : Bool) (e : Err)
    (rest : Bytes) (h : csvReadLine p s true = .fail e rest) :
    csvReadLine p (s ++ t) ig' = .fail e (s ++ t) := by
  have hne : s ≠ [] := by
    rintro rfl
    rw [csvReadLine_nil] at h
    simp at h
  rw [csvReadLine_eq p s true hne] at h
  rw [csvReadLine_eq p (s ++ t) ig' (by simp [hne]), qScan_append]
  cases hq : qScan p .newField 0 s with
  | newLine pos st =>
    simp only [hq] at h
    split at h
    · rename_i hm
      injection h with h1 h2
      subst h1
      simp only [hm, if_true]
    · simp at h
  | fin pos st =>
    simp only [hq] at h
    split at h
    · rename_i hm
      injection h with h1 h2
      subst h1
      have hge := qScan_pos_ge p st pos t
      simp only
      cases hq2 : qScan p st pos t with
      | newLine pos2 st2 =>
        simp only [hq2] at hge ⊢
        simp [tooLong_mono _ hge hm]
      | fin pos2 st2 =>
        simp only [hq2] at hge ⊢
        simp [tooLong_mono _ hge hm]
    · simp at h

/-! ## `rowReader` -/

theorem rowReader_noub (p : CsvParams) (c : Bytes) (ig : Bool) (w : String) :
    rowReader p c ig ≠ .ub w := by
  unfold rowReader; split
  · exact csvReadLine_noub _ _ _ _
  · exact readLine_noub _ _ _ _

theorem rowReader_got_suffix (p : CsvParams) (c : Bytes) (ig : Bool) (r : Record) (rest : Bytes)
    (h : rowReader p c ig = .got r rest) : rest <:+ c ∧ rest.length < c.length := by
  unfold rowReader at h; split at h
  · exact csvReadLine_got_suffix _ _ _ _ _ h
  · exact readLine_got_suffix _ _ _ _ _ h

theorem rowReader_more_eq (p : CsvParams) (c : Bytes) (ig : Bool) (rest : Bytes) (k : Nat)
    (h : rowReader p c ig = .more rest k) : rest = c ∧ k = 0 ∧ ig = true := by
  unfold rowReader at h; split at h
  · exact csvReadLine_more_eq _ _ _ _ _ h
  · exact readLine_more_eq _ _ _ _ _ h

theorem rowReader_fail_eq (p : CsvParams) (c : Bytes) (ig : Bool) (rest : Bytes) (e : Err)
    (h : rowReader p c ig = .fail e rest) : rest = c := by
  unfold rowReader at h; split at h
  · exact csvReadLine_fail_eq _ _ _ _ _ h
  · exact readLine_fail_eq _ _ _ _ _ h

/-! ## The row loop -/

theorem csvLoop_fuel (p : CsvParams) (ig : Bool) :
    ∀ (f : Nat) (c : Bytes), c.length ≤ f → csvLoop p f c ig = csvLoop p c.length c ig := by
  intro f
  induction f using Nat.strongRecOn with
  | _ f ih =>
    intro c hc
    cases c with
    | nil => cases f <;> simp [csvLoop]
    | cons b bs =>
      cases f with
      | zero => simp at hc
      | succ f =>
        simp only [List.length_cons, csvLoop]
        have key : ∀ rest : Bytes, rest.length < (b :: bs).length →
            csvLoop p f rest ig = csvLoop p bs.length rest ig := by
          intro rest hr
          simp at hr hc
          rw [ih f (by omega) rest (by omega)]
          by_cases hf : bs.length = f
          · rw [hf, ih f (by omega) rest (by omega)]
          · rw [ih bs.length (by omega) rest (by omega)]
        split
        · rfl
        · split
          · cases hr : readLine (b :: bs) ig none with
            | got r rest => simp only; exact key _ (readLine_got_suffix _ _ _ _ _ hr).2
            | more _ _ => rfl
            | fail _ _ => rfl
            | ub _ => rfl
          · cases hr : rowReader p (b :: bs) ig with
            | got r rest =>
              simp only
              split
              · rfl
              · exact key _ (rowReader_got_suffix _ _ _ _ _ hr).2
            | more _ _ => rfl
            | fail _ _ => rfl
            | ub _ => rfl

theorem csvDecodeText_nil (p : CsvParams) (ig : Bool) : csvDecodeText p [] ig = .more [] 0 := by
  simp [csvDecodeText, csvLoop]

/-- The loop, one iteration unfolded. -/
theorem csvDecodeText_eq (p : CsvParams) (c : Bytes) (ig : Bool) (hne : c ≠ []) :
    csvDecodeText p c ig =
      if isCommentLine p c then
        match readLine c ig none with
        | .got _ rest => csvDecodeText p rest ig
        | o => o
      else
        match rowReader p c ig with
        | .got r rest =>
          if !p.skipBlank || !r.payload.isEmpty then .got r rest else csvDecodeText p rest ig
        | o => o := by
  cases c with
  | nil => exact absurd rfl hne
  | cons b bs =>
    simp only [csvDecodeText, List.length_cons, csvLoop, List.isEmpty_cons, Bool.false_eq_true,
      if_false]
    split
    · cases hr : readLine (b :: bs) ig none with
      | got r rest =>
        have := (readLine_got_suffix _ _ _ _ _ hr).2
        simp only
        rw [csvLoop_fuel p ig bs.length rest (by simp at this; omega)]
      | more _ _ => rfl
      | fail _ _ => rfl
      | ub _ => rfl
    · cases hr : rowReader p (b :: bs) ig with
      | got r rest =>
        have := (rowReader_got_suffix _ _ _ _ _ hr).2
        simp only
        rw [csvLoop_fuel p ig bs.length rest (by simp at this; omega)]
      | more _ _ => rfl
      | fail _ _ => rfl
      | ub _ => rfl

theorem csvDecodeText_noub (p : CsvParams) (ig : Bool) (w : String) :
    ∀ c : Bytes, csvDecodeText p c ig ≠ .ub w := by
  intro c
  induction hn : c.length using Nat.strongRecOn generalizing c with
  | _ n ih =>
    by_cases hne : c = []
    · subst hne; simp [csvDecodeText_nil]
    · rw [csvDecodeText_eq p c ig hne]
      split
      · cases hr : readLine c ig none with
        | got r rest =>
          exact ih rest.length (by have := (readLine_got_suffix _ _ _ _ _ hr).2; omega) rest rfl
        | more _ _ => simp
        | fail _ _ => simp
        | ub w => exact absurd hr (readLine_noub _ _ _ _)
      · cases hr : rowReader p c ig with
        | got r rest =>
          simp only
          split
          · simp
          · exact ih rest.length (by have := (rowReader_got_suffix _ _ _ _ _ hr).2; omega) rest rfl
        | more _ _ => simp
        | fail _ _ => simp
        | ub w => exact absurd hr (rowReader_noub _ _ _ _)

/-- What is left is always a suffix. -/
theorem csvDecodeText_suffix (p : CsvParams) (ig : Bool) :
    ∀ (c rest : Bytes), ((∃ r, csvDecodeText p c ig = .got r rest) ∨
      (∃ e, csvDecodeText p c ig = .fail e rest) ∨ (∃ k, csvDecodeText p c ig = .more rest k)) →
      rest <:+ c := by
  intro c
  induction hn : c.length using Nat.strongRecOn generalizing c with
  | _ n ih =>
    intro rest h
    by_cases hne : c = []
    · subst hne
      rw [csvDecodeText_nil] at h
      rcases h with ⟨_, h⟩ | ⟨_, h⟩ | ⟨_, h⟩ <;> simp at h
      rw [h.1]; exact List.suffix_refl _
    · rw [csvDecodeText_eq p c ig hne] at h
      split at h
      · cases hr : readLine c ig none with
        | got r rest' =>
          obtain ⟨hs, hl⟩ := readLine_got_suffix _ _ _ _ _ hr
          simp only [hr] at h
          exact (ih rest'.length (by omega) rest' rfl rest h).trans hs
        | more rest' k =>
          simp only [hr] at h
          have := (readLine_more_eq _ _ _ _ _ hr).1
          subst this
          rcases h with ⟨_, h⟩ | ⟨_, h⟩ | ⟨_, h⟩ <;> simp at h
          rw [h.1]; exact List.suffix_refl _
        | fail e rest' =>
          simp only [hr] at h
          have := readLine_fail_eq _ _ _ _ _ hr
          subst this
          rcases h with ⟨_, h⟩ | ⟨_, h⟩ | ⟨_, h⟩ <;> simp at h
          rw [h.2]; exact List.suffix_refl _
        | ub w => exact absurd hr (readLine_noub _ _ _ _)
      · cases hr : rowReader p c ig with
        | got r rest' =>
          obtain ⟨hs, hl⟩ := rowReader_got_suffix _ _ _ _ _ hr
          simp only [hr] at h
          split at h
          · rcases h with ⟨_, h⟩ | ⟨_, h⟩ | ⟨_, h⟩ <;> simp at h
            rw [← h.2]; exact hs
          · exact (ih rest'.length (by omega) rest' rfl rest h).trans hs
        | more rest' k =>
          simp only [hr] at h
          have := (rowReader_more_eq _ _ _ _ _ hr).1
          subst this
          rcases h with ⟨_, h⟩ | ⟨_, h⟩ | ⟨_, h⟩ <;> simp at h
          rw [h.1]; exact List.suffix_refl _
        | fail e rest' =>
          simp only [hr] at h
          have := rowReader_fail_eq _ _ _ _ _ hr
          subst this
          rcases h with ⟨_, h⟩ | ⟨_, h⟩ | ⟨_, h⟩ <;> simp at h
          rw [h.2]; exact List.suffix_refl _
        | ub w => exact absurd hr (rowReader_noub _ _ _ _)

/-! ## Side conditions -/

/-- CR LF does not occur, or it cannot matter where a chunk ends: either every row is read by the
quote-aware reader, or blank lines are skipped and no length limit is set. -/
def CrlfOk (p : CsvParams) (x : Bytes) : Prop :=
  ¬ [CR, LF] <:+: x ∨ (p.quotedNewLines = true ∧ p.comment = none) ∨
  (p.skipBlank = true ∧ p.maxLine = none ∧ p.delimiter ≠ LF ∧ p.quote ≠ LF)

theorem CrlfOk.suffix {p : CsvParams} {x y : Bytes} (h : CrlfOk p x) (hs : y <:+ x) : CrlfOk p y := by
  rcases h with h | h | h
  · exact Or.inl fun hi => h (hi.trans hs.isInfix)
  · exact Or.inr (Or.inl h)
  · exact Or.inr (Or.inr h)

theorem crlf_infix (a : Bytes) (t : Bytes) : [CR, LF] <:+: (a ++ [CR]) ++ LF :: t :=
  ⟨a, t, by simp⟩

/-- A blank line in front changes nothing when blank lines are skipped. -/
theorem csvDecodeText_blank (p : CsvParams) (hs : p.skipBlank = true) (hm : p.maxLine = none)
    (hd : p.delimiter ≠ LF) (hq : p.quote ≠ LF) (t : Bytes) (ig : Bool) :
    csvDecodeText p (LF :: t) ig = csvDecodeText p t ig := by
  have h1 : ∀ m, m = none → readLine (LF :: t) ig m = .got ⟨0, []⟩ t := by
    intro m hm
    subst hm
    have := readLine_lf [] t NoNl.nil ig none
    simpa [tooLong] using this
  have h2 : csvReadLine p (LF :: t) ig = .got ⟨0, []⟩ t := by
    rw [csvReadLine_eq p _ _ (by simp)]
    simp [qScan, Ne.symm hd, Ne.symm hq, hm, tooLong]
  rw [csvDecodeText_eq p _ _ (by simp)]
  split
  · rw [h1 none rfl]
  · simp [rowReader, h1 _ hm, h2, hs]

theorem isComment_append (p : CsvParams) (s t : Bytes) (h : s ≠ []) :
    isCommentLine p (s ++ t) = isCommentLine p s := by
  cases s with
  | nil => exact absurd rfl h
  | cons c s => cases hc : p.comment <;> simp [isCommentLine, hc]

/-- **The row loop is insensitive to what follows.** -/
theorem csvDecodeText_append (p : CsvParams) (t : Bytes) (ig' : Bool) :
    ∀ z : Bytes, CrlfOk p (z ++ t) →
      (∀ r rest, csvDecodeText p z true = .got r rest →
        csvDecodeText p (z ++ t) ig' = .got r (rest ++ t) ∨
        (rest = [] ∧ (p.skipBlank = true ∧ p.maxLine = none ∧ p.delimiter ≠ LF ∧ p.quote ≠ LF) ∧
          ∃ t', t = LF :: t' ∧ csvDecodeText p (z ++ t) ig' = .got r t')) ∧
      (∀ e rest, csvDecodeText p z true = .fail e rest →
        csvDecodeText p (z ++ t) ig' = .fail e (rest ++ t)) ∧
      (∀ rest k, csvDecodeText p z true = .more rest k →
        csvDecodeText p (z ++ t) ig' = csvDecodeText p (rest ++ t) ig') := by
  intro z
  induction hn : z.length using Nat.strongRecOn generalizing z with
  | _ n ih =>
    intro hok
    by_cases hne : z = []
    · subst hne
      rw [csvDecodeText_nil]
      refine ⟨by simp, by simp, ?_⟩
      intro rest k h
      injection h with h1
      subst h1
      rfl
    · rw [csvDecodeText_eq p z true hne, csvDecodeText_eq p (z ++ t) ig' (by simp [hne]),
        isComment_append p z t hne]
      by_cases hc : isCommentLine p z = true
      · simp only [hc, if_true]
        have hcom : p.comment ≠ none := by
          intro h; simp [isCommentLine, h] at hc
        cases hr : readLine z true none with
        | got r0 rest0 =>
          obtain ⟨hsuf, hl⟩ := readLine_got_suffix _ _ _ _ _ hr
          have hok' : CrlfOk p (rest0 ++ t) :=
            hok.suffix (by obtain ⟨u, rfl⟩ := hsuf; exact ⟨u, by simp⟩)
          have hind := ih rest0.length (by omega) rest0 rfl hok'
          simp only
          rcases readLine_got_append z t ig' none r0 rest0 hr with happ | ⟨hr0, b, t', hz, ht, happ⟩
          · simp only [happ]; exact hind
          · -- the comment line ended in CR and LF follows
            have hskip : p.skipBlank = true ∧ p.maxLine = none ∧ p.delimiter ≠ LF ∧ p.quote ≠ LF := by
              rcases hok with h | h | h
              · exact absurd (by rw [hz, ht]; exact crlf_infix b t') h
              · exact absurd h.2 hcom
              · exact h
            have happ := happ rfl
            have hblank := csvDecodeText_blank p hskip.1 hskip.2.1 hskip.2.2.1 hskip.2.2.2 t' ig'
            simp only [happ]
            subst hr0
            rw [List.nil_append, ht, hblank] at hind
            rw [csvDecodeText_nil] at hind ⊢
            refine ⟨by simp, by simp, ?_⟩
            intro rest k h
            injection h with h1 h2
            subst h1
            rw [List.nil_append, ht, hblank]
        | more rest0 k0 =>
          obtain ⟨hrest, _, _⟩ := readLine_more_eq _ _ _ _ _ hr
          subst hrest
          refine ⟨by simp, by simp, ?_⟩
          intro rest k h
          injection h with h1 h2
          subst h1
          rw [csvDecodeText_eq p (rest0 ++ t) ig' (by simp [hne]), isComment_append p rest0 t hne]
          simp only [hc, if_true]
        | fail e0 rest0 =>
          have hrest := readLine_fail_eq _ _ _ _ _ hr
          subst hrest
          refine ⟨by simp, ?_, by simp⟩
          intro e rest h
          injection h with h1 h2
          subst h1 h2
          rw [readLine_fail_append _ t ig' none _ _ hr]
        | ub w => exact absurd hr (readLine_noub _ _ _ _)
      · simp only [hc, if_false, Bool.false_eq_true]
        cases hr : rowReader p z true with
        | got r0 rest0 =>
          obtain ⟨hsuf, hl⟩ := rowReader_got_suffix _ _ _ _ _ hr
          have hok' : CrlfOk p (rest0 ++ t) :=
            hok.suffix (by obtain ⟨u, rfl⟩ := hsuf; exact ⟨u, by simp⟩)
          have hind := ih rest0.length (by omega) rest0 rfl hok'
          have happ : rowReader p (z ++ t) ig' = .got r0 (rest0 ++ t) ∨
              (rest0 = [] ∧ (p.skipBlank = true ∧ p.maxLine = none ∧ p.delimiter ≠ LF ∧ p.quote ≠ LF) ∧
                ∃ t', t = LF :: t' ∧ rowReader p (z ++ t) ig' = .got r0 t') := by
            unfold rowReader at hr ⊢
            by_cases hquo : p.quotedNewLines = true
            · simp only [hquo, if_true] at hr ⊢
              exact Or.inl (csvReadLine_got_append _ _ _ _ _ _ hr)
            · simp only [hquo, if_false, Bool.false_eq_true] at hr ⊢
              rcases readLine_got_append z t ig' _ r0 rest0 hr with h | ⟨hr0, b, t', hz, ht, h⟩
              · exact Or.inl h
              · right
                have hskip : p.skipBlank = true ∧ p.maxLine = none ∧ p.delimiter ≠ LF ∧ p.quote ≠ LF := by
                  rcases hok with h | h | h
                  · exact absurd (by rw [hz, ht]; exact crlf_infix b t') h
                  · exact absurd h.1 hquo
                  · exact h
                exact ⟨hr0, hskip, t', ht, h hskip.2.1⟩
          rcases happ with happ | ⟨hr0, hskip, t', ht, happ⟩
          · simp only [happ]
            split
            · refine ⟨?_, by simp, by simp⟩
              intro r rest h
              injection h with h1 h2
              subst h1 h2
              exact Or.inl rfl
            · exact hind
          · have hblank := csvDecodeText_blank p hskip.1 hskip.2.1 hskip.2.2.1 hskip.2.2.2 t' ig'
            simp only [happ]
            subst hr0
            split
            · refine ⟨?_, by simp, by simp⟩
              intro r rest h
              injection h with h1 h2
              subst h1 h2
              exact Or.inr ⟨rfl, hskip, t', ht, rfl⟩
            · rw [csvDecodeText_nil]
              refine ⟨by simp, by simp, ?_⟩
              intro rest k h
              injection h with h1 h2
              subst h1
              rw [List.nil_append, ht, hblank]
        | more rest0 k0 =>
          obtain ⟨hrest, _, _⟩ := rowReader_more_eq _ _ _ _ _ hr
          subst hrest
          refine ⟨by simp, by simp, ?_⟩
          intro rest k h
          injection h with h1 h2
          subst h1
          rw [csvDecodeText_eq p (rest0 ++ t) ig' (by simp [hne]), isComment_append p rest0 t hne]
          simp only [hc, if_false, Bool.false_eq_true]
        | fail e0 rest0 =>
          have hrest := rowReader_fail_eq _ _ _ _ _ hr
          subst hrest
          refine ⟨by simp, ?_, by simp⟩
          intro e rest h
          injection h with h1 h2
          subst h1 h2
          have : rowReader p (rest0 ++ t) ig' = .fail e0 (rest0 ++ t) := by
            unfold rowReader at hr ⊢
            split at hr
            · rename_i hquo
              simp only [hquo, if_true]
              exact csvReadLine_fail_append _ _ _ _ _ _ hr
            · rename_i hquo
              simp only [hquo, if_false, Bool.false_eq_true]
              exact readLine_fail_append _ _ _ _ _ _ hr
          rw [this]
        | ub w => exact absurd hr (rowReader_noub _ _ _ _)

/-! ## The byte order mark -/

/-- The UTF-8 byte order mark. -/
def bom : Bytes := [0xEF, 0xBB, 0xBF]

/-- The positions at which the loop over the rows starts a line, when it reads everything at once. -/
inductive RowStart (p : CsvParams) : Bytes → Bytes → Prop where
  | refl (x : Bytes) : RowStart p x x
  | comment {x rest y : Bytes} {r : Record} (hc : isCommentLine p x = true) (h : readLine x false none = .got r rest)
      (hr : RowStart p rest y) : RowStart p x y
  | row {x rest y : Bytes} {r : Record} (hc : isCommentLine p x = false) (h : rowReader p x false = .got r rest)
      (hr : RowStart p rest y) : RowStart p x y

/-- No line starts with the byte order mark. -/
def MarkFree (p : CsvParams) (x : Bytes) : Prop := ∀ y, RowStart p x y → ¬ bom <+: y

/-- No line starts with the byte order mark, except that there may be one in front of the text. -/
def BomOk (p : CsvParams) (x : Bytes) : Prop := MarkFree p x ∨ ∃ y, x = bom ++ y ∧ MarkFree p y

theorem MarkFree.start {p : CsvParams} {x : Bytes} (h : MarkFree p x) : ¬ bom <+: x := h x (.refl x)

theorem MarkFree.comment {p : CsvParams} {x rest : Bytes} {r : Record} (h : MarkFree p x)
    (hc : isCommentLine p x = true) (hr : readLine x false none = .got r rest) : MarkFree p rest :=
  fun y hy => h y (.comment hc hr hy)

theorem MarkFree.row {p : CsvParams} {x rest : Bytes} {r : Record} (h : MarkFree p x)
    (hc : isCommentLine p x = false) (hr : rowReader p x false = .got r rest) : MarkFree p rest :=
  fun y hy => h y (.row hc hr hy)

theorem MarkFree.nil (p : CsvParams) : MarkFree p [] := by
  intro y hy
  cases hy with
  | refl => simp [bom]
  | comment hc h => simp [readLine] at h
  | row hc h =>
    unfold rowReader at h
    split at h
    · simp [csvReadLine] at h
    · simp [readLine] at h

/-- A blank line in front. -/
theorem MarkFree.blank {p : CsvParams} (hm : p.maxLine = none) (hd : p.delimiter ≠ LF) (hq : p.quote ≠ LF)
    {t : Bytes} (h : MarkFree p t) : MarkFree p (LF :: t) := by
  have h1 : readLine (LF :: t) false none = .got ⟨0, []⟩ t := by
    simpa [tooLong] using readLine_lf [] t NoNl.nil false none
  have h2 : csvReadLine p (LF :: t) false = .got ⟨0, []⟩ t := by
    rw [csvReadLine_eq p _ _ (by simp)]
    simp [qScan, Ne.symm hd, Ne.symm hq, hm, tooLong]
  intro y hy
  cases hy with
  | refl => simp [bom, LF]
  | comment hc hr hy =>
    rw [h1] at hr
    cases hr
    exact h y hy
  | row hc hr hy =>
    simp only [rowReader, h2, hm, h1, ite_self] at hr
    cases hr
    exact h y hy

/-- The row loop leaves a text in which no line starts with the byte order mark. -/
theorem csvDecodeText_markFree (p : CsvParams) (t : Bytes) :
    ∀ z : Bytes, CrlfOk p (z ++ t) → MarkFree p (z ++ t) → ∀ rest, ((∃ r, csvDecodeText p z true = .got r rest) ∨
      (∃ e, csvDecodeText p z true = .fail e rest) ∨ (∃ k, csvDecodeText p z true = .more rest k)) →
      MarkFree p (rest ++ t) := by
  intro z
  induction hn : z.length using Nat.strongRecOn generalizing z with
  | _ n ih =>
    intro hok hfree rest h
    by_cases hne : z = []
    · subst hne
      rw [csvDecodeText_nil] at h
      rcases h with ⟨_, h⟩ | ⟨_, h⟩ | ⟨_, h⟩ <;> simp at h
      rw [h.1]; exact hfree
    · have hcomm := isComment_append p z t hne
      rw [csvDecodeText_eq p z true hne] at h
      have same : ∀ rest0, rest0 = z → ((∃ r, (Dec.more rest0 0 : Dec Record) = .got r rest) ∨
          (∃ e, (Dec.more rest0 0 : Dec Record) = .fail e rest) ∨ (∃ k, (Dec.more rest0 0 : Dec Record) = .more rest k)) →
          MarkFree p (rest ++ t) := by
        intro rest0 h0 h
        rcases h with ⟨_, h⟩ | ⟨_, h⟩ | ⟨_, h⟩ <;> simp at h
        rw [← h.1, h0]; exact hfree
      have hsuf : ∀ rest0 : Bytes, rest0 <:+ z → CrlfOk p (rest0 ++ t) := fun rest0 hs =>
        hok.suffix (by obtain ⟨u, rfl⟩ := hs; exact ⟨u, by simp⟩)
      by_cases hc : isCommentLine p z = true
      · simp only [hc, if_true] at h
        have hcom : p.comment ≠ none := by
          intro h; simp [isCommentLine, h] at hc
        cases hr : readLine z true none with
        | got r0 rest0 =>
          obtain ⟨hs, hl⟩ := readLine_got_suffix _ _ _ _ _ hr
          simp only [hr] at h
          rcases readLine_got_append z t false none r0 rest0 hr with happ | ⟨hr0, b, t', hz, ht, happ⟩
          · exact ih rest0.length (by omega) rest0 rfl (hsuf rest0 hs) (hfree.comment (by rw [hcomm, hc]) happ) rest h
          · have hskip : p.skipBlank = true ∧ p.maxLine = none ∧ p.delimiter ≠ LF ∧ p.quote ≠ LF := by
              rcases hok with h | h | h
              · exact absurd (by rw [hz, ht]; exact crlf_infix b t') h
              · exact absurd h.2 hcom
              · exact h
            have hf := hfree.comment (by rw [hcomm, hc]) (happ rfl)
            subst hr0
            rw [csvDecodeText_nil] at h
            rcases h with ⟨_, h⟩ | ⟨_, h⟩ | ⟨_, h⟩ <;> simp at h
            rw [h.1, List.nil_append, ht]
            exact hf.blank hskip.2.1 hskip.2.2.1 hskip.2.2.2
        | more rest0 k =>
          simp only [hr] at h
          obtain ⟨h1, rfl, _⟩ := readLine_more_eq _ _ _ _ _ hr
          exact same rest0 h1 h
        | fail e rest0 =>
          simp only [hr] at h
          have h1 := readLine_fail_eq _ _ _ _ _ hr
          rcases h with ⟨_, h⟩ | ⟨_, h⟩ | ⟨_, h⟩ <;> simp at h
          rw [← h.2, h1]; exact hfree
        | ub w => exact absurd hr (readLine_noub _ _ _ _)
      · have hc' : isCommentLine p (z ++ t) = false := by rw [hcomm]; simpa using hc
        simp only [hc, if_false, Bool.false_eq_true] at h
        cases hr : rowReader p z true with
        | got r0 rest0 =>
          obtain ⟨hs, hl⟩ := rowReader_got_suffix _ _ _ _ _ hr
          simp only [hr] at h
          have happ : rowReader p (z ++ t) false = .got r0 (rest0 ++ t) ∨
              (rest0 = [] ∧ (p.skipBlank = true ∧ p.maxLine = none ∧ p.delimiter ≠ LF ∧ p.quote ≠ LF) ∧
                ∃ t', t = LF :: t' ∧ rowReader p (z ++ t) false = .got r0 t') := by
            unfold rowReader at hr ⊢
            by_cases hquo : p.quotedNewLines = true
            · simp only [hquo, if_true] at hr ⊢
              exact Or.inl (csvReadLine_got_append _ _ _ _ _ _ hr)
            · simp only [hquo, if_false, Bool.false_eq_true] at hr ⊢
              rcases readLine_got_append z t false _ r0 rest0 hr with h | ⟨hr0, b, t', hz, ht, h⟩
              · exact Or.inl h
              · right
                have hskip : p.skipBlank = true ∧ p.maxLine = none ∧ p.delimiter ≠ LF ∧ p.quote ≠ LF := by
                  rcases hok with h | h | h
                  · exact absurd (by rw [hz, ht]; exact crlf_infix b t') h
                  · exact absurd h.1 hquo
                  · exact h
                exact ⟨hr0, hskip, t', ht, h hskip.2.1⟩
          have hf : MarkFree p (rest0 ++ t) := by
            rcases happ with happ | ⟨hr0, hskip, t', ht, happ⟩
            · exact hfree.row hc' happ
            · rw [hr0, List.nil_append, ht]
              exact (hfree.row hc' happ).blank hskip.2.1 hskip.2.2.1 hskip.2.2.2
          split at h
          · rcases h with ⟨_, h⟩ | ⟨_, h⟩ | ⟨_, h⟩ <;> simp at h
            rw [← h.2]; exact hf
          · exact ih rest0.length (by omega) rest0 rfl (hsuf rest0 hs) hf rest h
        | more rest0 k =>
          simp only [hr] at h
          obtain ⟨h1, rfl, _⟩ := rowReader_more_eq _ _ _ _ _ hr
          exact same rest0 h1 h
        | fail e rest0 =>
          simp only [hr] at h
          have h1 := rowReader_fail_eq _ _ _ _ _ hr
          rcases h with ⟨_, h⟩ | ⟨_, h⟩ | ⟨_, h⟩ <;> simp at h
          rw [← h.2, h1]; exact hfree
        | ub w => exact absurd hr (rowReader_noub _ _ _ _)

/-- The same when everything has been read. -/
theorem csvDecodeText_markFree_end (p : CsvParams) :
    ∀ z : Bytes, MarkFree p z → ∀ rest, ((∃ r, csvDecodeText p z false = .got r rest) ∨
      (∃ e, csvDecodeText p z false = .fail e rest)) → MarkFree p rest := by
  intro z
  induction hn : z.length using Nat.strongRecOn generalizing z with
  | _ n ih =>
    intro hfree rest h
    by_cases hne : z = []
    · subst hne
      rw [csvDecodeText_nil] at h
      rcases h with ⟨_, h⟩ | ⟨_, h⟩ <;> simp at h
    · rw [csvDecodeText_eq p z false hne] at h
      by_cases hc : isCommentLine p z = true
      · simp only [hc, if_true] at h
        cases hr : readLine z false none with
        | got r0 rest0 =>
          obtain ⟨hs, hl⟩ := readLine_got_suffix _ _ _ _ _ hr
          simp only [hr] at h
          exact ih rest0.length (by omega) rest0 rfl (hfree.comment hc hr) rest h
        | more rest0 k =>
          simp only [hr] at h
          rcases h with ⟨_, h⟩ | ⟨_, h⟩ <;> simp at h
        | fail e rest0 =>
          simp only [hr] at h
          have h1 := readLine_fail_eq _ _ _ _ _ hr
          rcases h with ⟨_, h⟩ | ⟨_, h⟩ <;> simp at h
          rw [← h.2, h1]; exact hfree
        | ub w => exact absurd hr (readLine_noub _ _ _ _)
      · have hc' : isCommentLine p z = false := by simpa using hc
        simp only [hc, if_false, Bool.false_eq_true] at h
        cases hr : rowReader p z false with
        | got r0 rest0 =>
          obtain ⟨hs, hl⟩ := rowReader_got_suffix _ _ _ _ _ hr
          simp only [hr] at h
          have hf := hfree.row hc' hr
          split at h
          · rcases h with ⟨_, h⟩ | ⟨_, h⟩ <;> simp at h
            rw [← h.2]; exact hf
          · exact ih rest0.length (by omega) rest0 rfl hf rest h
        | more rest0 k =>
          simp only [hr] at h
          rcases h with ⟨_, h⟩ | ⟨_, h⟩ <;> simp at h
        | fail e rest0 =>
          simp only [hr] at h
          have h1 := rowReader_fail_eq _ _ _ _ _ hr
          rcases h with ⟨_, h⟩ | ⟨_, h⟩ <;> simp at h
          rw [← h.2, h1]; exact hfree
        | ub w => exact absurd hr (rowReader_noub _ _ _ _)

theorem skipBom_bom (y : Bytes) (ig : Bool) : skipBom (bom ++ y) ig = some y := by
  simp [skipBom, bom]

theorem skipBom_nobom (x : Bytes) (h : ¬ bom <+: x) : skipBom x false = some x := by
  unfold skipBom
  split
  · rename_i a b c rest
    split
    · rename_i hh
      obtain ⟨rfl, rfl, rfl⟩ := hh
      exact absurd ⟨rest, rfl⟩ h
    · rfl
  · rfl

theorem skipBom_cases (s : Bytes) :
    skipBom s true = none ∨ (∃ z, s = bom ++ z ∧ skipBom s true = some z) ∨
    (3 ≤ s.length ∧ ¬ bom <+: s ∧ skipBom s true = some s) := by
  unfold skipBom
  split
  · rename_i a b c rest
    split
    · rename_i hh
      obtain ⟨rfl, rfl, rfl⟩ := hh
      exact Or.inr (Or.inl ⟨rest, rfl, rfl⟩)
    · rename_i hh
      refine Or.inr (Or.inr ⟨by simp, ?_, rfl⟩)
      rintro ⟨u, hu⟩
      simp only [bom, List.cons_append, List.nil_append, List.cons.injEq] at hu
      exact hh ⟨hu.1.symm, hu.2.1.symm, hu.2.2.1.symm⟩
  · exact Or.inl rfl

theorem csvDecode_nobom (p : CsvParams) (x : Bytes) (h : ¬ bom <+: x) :
    csvDecode p x false = csvDecodeText p x false := by
  unfold csvDecode textRecord
  by_cases hx : x = []
  · subst hx; simp [csvDecodeText_nil]
  · have : x.isEmpty = false := by cases x <;> simp_all
    simp [this, skipBom_nobom x h]

theorem csvDecode_bom (p : CsvParams) (y : Bytes) (ig : Bool) :
    csvDecode p (bom ++ y) ig = csvDecodeText p y ig := by
  unfold csvDecode textRecord
  rw [skipBom_bom]
  simp [bom]

def CsvGood (p : CsvParams) (x : Bytes) : Prop := CrlfOk p x ∧ BomOk p x

theorem wholeStep_congr {ρ : Type} {dec : Bytes → Bool → Dec ρ} {x y : Bytes}
    (hub : ∀ s ig w, dec s ig ≠ .ub w) (h : dec x false = dec y false) :
    wholeStep dec x = wholeStep dec y := by
  unfold wholeStep
  rw [h]
  cases hd : dec y false with
  | ub w => exact absurd hd (hub _ _ _)
  | _ => rfl

theorem wholeN_congr {ρ : Type} {dec : Bytes → Bool → Dec ρ} {x y : Bytes}
    (hub : ∀ s ig w, dec s ig ≠ .ub w) (h : dec x false = dec y false) (n : Nat) :
    wholeN dec n x = wholeN dec n y := by
  cases n with
  | zero => rfl
  | succ n => simp only [wholeN, wholeStep_congr hub h]

theorem csvDecode_noub (p : CsvParams) (s : Bytes) (ig : Bool) (w : String) :
    csvDecode p s ig ≠ .ub w := by
  unfold csvDecode textRecord
  split
  · simp
  · split
    · exact csvDecodeText_noub _ _ _ _
    · simp

theorem skipBom_suffix (s z : Bytes) (ig : Bool) (h : skipBom s ig = some z) : z <:+ s := by
  unfold skipBom at h
  split at h
  · rename_i a b c rest
    split at h
    · injection h with h; subst h; exact ⟨[a, b, c], rfl⟩
    · injection h with h; subst h; exact List.suffix_refl _
  · split at h
    · simp at h
    · injection h with h; subst h; exact List.suffix_refl _

theorem csvDecode_suffix (p : CsvParams) (ig : Bool) (c rest : Bytes)
    (h : (∃ r, csvDecode p c ig = .got r rest) ∨
      (∃ e, csvDecode p c ig = .fail e rest) ∨ (∃ k, csvDecode p c ig = .more rest k)) :
    rest <:+ c := by
  unfold csvDecode textRecord at h
  split at h
  · rcases h with ⟨_, h⟩ | ⟨_, h⟩ | ⟨_, h⟩ <;> simp at h
    rw [h.1]; exact List.suffix_refl _
  · split at h
    · rename_i z hz
      exact (csvDecodeText_suffix p ig z rest h).trans (skipBom_suffix _ _ _ hz)
    · rcases h with ⟨_, h⟩ | ⟨_, h⟩ | ⟨_, h⟩ <;> simp at h
      rw [h.1]; exact List.suffix_refl _

/-- After decoding from the whole contents, what is left is good again. -/
theorem csvGood_after (p : CsvParams) (s rest : Bytes) (hg : CsvGood p s)
    (h : (∃ r, csvDecode p s false = .got r rest) ∨ (∃ e, csvDecode p s false = .fail e rest)) :
    CsvGood p rest := by
  have hsuf := csvDecode_suffix p false s rest (by rcases h with h | h; exact Or.inl h; exact Or.inr (Or.inl h))
  refine ⟨hg.1.suffix hsuf, Or.inl ?_⟩
  rcases hg.2 with hb | ⟨y, rfl, hy⟩
  · rw [csvDecode_nobom p s hb.start] at h
    exact csvDecodeText_markFree_end p s hb rest h
  · rw [csvDecode_bom] at h
    exact csvDecodeText_markFree_end p y hy rest h

theorem csv_laws (p : CsvParams) : Laws (csvDecode p) (CsvGood p) := by
  -- common part: a chunk that gets past the byte order mark test
  have main : ∀ s t : Bytes, CsvGood p (s ++ t) → s ≠ [] →
      (csvDecode p s true = .more s 0) ∨
      ∃ z, csvDecode p s true = csvDecodeText p z true ∧
        csvDecode p (s ++ t) false = csvDecodeText p (z ++ t) false ∧
        CrlfOk p (z ++ t) ∧ MarkFree p (z ++ t) := by
    intro s t hg hne
    have he : s.isEmpty = false := by cases s <;> simp_all
    rcases skipBom_cases s with h | ⟨z, hz, h⟩ | ⟨hl, hnb, h⟩
    · left; simp [csvDecode, textRecord, he, h]
    · right
      refine ⟨z, by simp [csvDecode, textRecord, he, h], ?_, ?_, ?_⟩
      · rw [hz, List.append_assoc, csvDecode_bom]
      · exact hg.1.suffix ⟨bom, by rw [hz, List.append_assoc]⟩
      · rcases hg.2 with hb | ⟨y, hy, hny⟩
        · exact absurd ⟨z ++ t, by rw [hz]; simp⟩ hb.start
        · rw [hz, List.append_assoc] at hy
          rw [List.append_cancel_left hy]; exact hny
    · right
      have hnb' : ¬ bom <+: s ++ t := by
        rintro ⟨u, hu⟩
        apply hnb
        refine ⟨s.drop 3, ?_⟩
        have h3 : (s ++ t).take 3 = bom := by rw [← hu]; simp [bom]
        rw [List.take_append_of_le_length hl] at h3
        rw [← h3, List.take_append_drop]
      refine ⟨s, by simp [csvDecode, textRecord, he, h], csvDecode_nobom p _ hnb', hg.1, ?_⟩
      rcases hg.2 with hb | ⟨y, hy, hny⟩
      · exact hb
      · exact absurd ⟨y, hy.symm⟩ hnb'
  have hnil : ∀ ig, csvDecode p [] ig = .more [] 0 := by
    intro ig; simp [csvDecode, textRecord]
  have app_good : ∀ z t rest : Bytes, rest <:+ z → CrlfOk p (z ++ t) → MarkFree p (rest ++ t) →
      CsvGood p (rest ++ t) := by
    intro z t rest hs h1 h2
    have : rest ++ t <:+ z ++ t := by obtain ⟨u, rfl⟩ := hs; exact ⟨u, by simp⟩
    exact ⟨h1.suffix this, Or.inl h2⟩
  refine ⟨fun ig => ⟨0, hnil ig⟩, ?_, ?_, ?_, csvDecode_noub p, ?_, ?_, ?_, ?_, ?_, ?_⟩
  · intro s t r rest hg h
    have hne : s ≠ [] := by rintro rfl; simp [hnil] at h
    rcases main s t hg hne with hm | ⟨z, e1, e2, e3, e4⟩
    · rw [hm] at h; simp at h
    · rw [e1] at h
      have hsuf := csvDecodeText_suffix p true z rest (Or.inl ⟨r, h⟩)
      have hfree := csvDecodeText_markFree p t z e3 e4 rest (Or.inl ⟨r, h⟩)
      have hgood := app_good z t rest hsuf e3 hfree
      rcases (csvDecodeText_append p t false z e3).1 r rest h with happ | ⟨hr, hskip, t', ht, happ⟩
      · rw [← e2] at happ
        rw [wholeStep_got happ]
        exact ⟨rfl, fun _ => rfl, hgood⟩
      · rw [← e2] at happ
        rw [wholeStep_got happ]
        refine ⟨rfl, ?_, hgood⟩
        intro n
        subst hr
        rw [List.nil_append, ht]
        apply wholeN_congr (csvDecode_noub p)
        have hw : csvDecode p (s ++ t) false = csvDecodeText p (z ++ t) false := e2
        have hnb : ¬ bom <+: t' := by
          refine (csvDecodeText_markFree_end p (z ++ t) e4 t' (Or.inl ⟨r, ?_⟩)).start
          rw [← hw, happ]
        rw [csvDecode_nobom p _ hnb, csvDecode_nobom p _ (by simp [bom, LF]),
          csvDecodeText_blank p hskip.1 hskip.2.1 hskip.2.2.1 hskip.2.2.2]
  · intro s t e rest hg h
    have hne : s ≠ [] := by rintro rfl; simp [hnil] at h
    rcases main s t hg hne with hm | ⟨z, e1, e2, e3, e4⟩
    · rw [hm] at h; simp at h
    · rw [e1] at h
      have hsuf := csvDecodeText_suffix p true z rest (Or.inr (Or.inl ⟨e, h⟩))
      have hgood := app_good z t rest hsuf e3 (csvDecodeText_markFree p t z e3 e4 rest (Or.inr (Or.inl ⟨e, h⟩)))
      have happ := (csvDecodeText_append p t false z e3).2.1 e rest h
      rw [← e2] at happ
      simp only [wholeStep, happ]
      exact ⟨trivial, fun _ => trivial, hgood⟩
  · intro s t rest k hg h
    by_cases hne : s = []
    · subst hne
      rw [hnil] at h
      injection h with h1
      subst h1
      exact ⟨fun _ => rfl, hg⟩
    · rcases main s t hg hne with hm | ⟨z, e1, e2, e3, e4⟩
      · rw [hm] at h
        injection h with h1
        subst h1
        exact ⟨fun _ => rfl, hg⟩
      · rw [e1] at h
        have hsuf := csvDecodeText_suffix p true z rest (Or.inr (Or.inr ⟨k, h⟩))
        have hfree := csvDecodeText_markFree p t z e3 e4 rest (Or.inr (Or.inr ⟨k, h⟩))
        have hgood := app_good z t rest hsuf e3 hfree
        refine ⟨fun n => ?_, hgood⟩
        have happ := (csvDecodeText_append p t false z e3).2.2 rest k h
        apply wholeN_congr (csvDecode_noub p)
        rw [e2, happ, csvDecode_nobom p _ hfree.start]
  · exact fun s ig r rest h => (csvDecode_suffix p ig s rest (Or.inl ⟨r, h⟩)).length_le
  · exact fun s ig e rest h => (csvDecode_suffix p ig s rest (Or.inr (Or.inl ⟨e, h⟩))).length_le
  · exact fun s ig k rest h => (csvDecode_suffix p ig s rest (Or.inr (Or.inr ⟨k, h⟩))).length_le
  · exact fun s r rest hg h => csvGood_after p s rest hg (Or.inl ⟨r, h⟩)
  · exact fun s e rest hg h => csvGood_after p s rest hg (Or.inr ⟨e, h⟩)
  · exact ⟨Or.inl (by simp), Or.inl (MarkFree.nil p)⟩

/-! ## The text line reader is the CSV row loop without comments, limits and quoting -/

def textParams (skip : Bool) : CsvParams := { skipBlank := skip }

theorem textLoop_eq (ig : Bool) : ∀ (f : Nat) (c : Bytes),
    textLoop f c ig = csvLoop (textParams true) f c ig := by
  intro f
  induction f with
  | zero => intro c; simp [textLoop, csvLoop]
  | succ f ih =>
    intro c
    simp only [textLoop, csvLoop, textParams, isCommentLine, rowReader]
    split
    · rfl
    · simp only [Bool.false_eq_true, if_false, Bool.not_true, Bool.false_or]
      cases hr : readLine c ig none with
      | got r rest => simp only; rw [ih]; rfl
      | _ => rfl

theorem textDecode_eq (skip : Bool) (c : Bytes) (ig : Bool) :
    textDecode skip c ig = csvDecode (textParams skip) c ig := by
  unfold textDecode csvDecode textRecord
  have : ∀ x, textDecodeText skip x ig = csvDecodeText (textParams skip) x ig := by
    intro x
    by_cases hx : x = []
    · subst hx; simp [textDecodeText, csvDecodeText_nil]
    · have he : x.isEmpty = false := by cases x <;> simp_all
      simp only [textDecodeText, he, Bool.false_eq_true, if_false]
      cases skip with
      | true => simp only [if_true]; exact textLoop_eq ig _ _
      | false =>
        rw [csvDecodeText_eq _ _ _ hx]
        simp only [textParams, isCommentLine, rowReader, Bool.false_eq_true, if_false,
          Bool.not_false, Bool.true_or, if_true]
        cases hr : readLine x ig none <;> rfl
  simp only [this]

end Mlio
