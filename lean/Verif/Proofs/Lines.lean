import Verif.Proofs.CsvRows

namespace Mlio

open Spec

/-- `rd` applied to the row `b` followed by a terminator, or to the unterminated row `b`, returns `b`. -/
def Delivers (rd : Bytes → Dec Record) (b : Bytes) : Prop :=
  (∀ (t : Term) x, (t = .cr → x.head? ≠ some LF) → rd (b ++ t.bytes ++ x) = .got ⟨0, b⟩ x) ∧
  (b ≠ [] → rd b = .got ⟨0, b⟩ [])

theorem readLine_delivers (b : Bytes) (h : Plain b) : Delivers (fun c => readLine c false none) b := by
  constructor
  · intro t x hx
    cases t with
    | lf => simp only [Term.bytes, List.append_assoc, List.cons_append, List.nil_append]
            have := readLine_lf b x h false none
            simpa [tooLong] using this
    | crlf => simp only [Term.bytes, List.append_assoc, List.cons_append, List.nil_append]
              have := readLine_crlf b x h false none
              simpa [tooLong] using this
    | cr => simp only [Term.bytes, List.append_assoc, List.cons_append, List.nil_append]
            have := readLine_cr b x h (hx rfl) false none
            simpa [tooLong] using this
  · intro hne
    have := readLine_open b h hne false none
    simpa [tooLong] using this

theorem bom_prefix_line (b : Bytes) (t : Term) (x : Bytes) (h : bom <+: b ++ t.bytes ++ x) :
    bom <+: b := by
  have key : ∀ (c : UInt8) (y : Bytes), c = LF ∨ c = CR → bom <+: b ++ c :: y → bom <+: b := by
    rintro c y hc ⟨u, hu⟩
    match b with
    | [] =>
      simp only [bom, List.cons_append, List.nil_append, List.cons.injEq] at hu
      rcases hc with rfl | rfl <;> exact absurd hu.1 (by decide)
    | [a] =>
      simp only [bom, List.cons_append, List.nil_append, List.cons.injEq] at hu
      rcases hc with rfl | rfl <;> exact absurd hu.2.1 (by decide)
    | [a, a'] =>
      simp only [bom, List.cons_append, List.nil_append, List.cons.injEq] at hu
      rcases hc with rfl | rfl <;> exact absurd hu.2.2.1 (by decide)
    | a :: a' :: a'' :: b =>
      simp only [bom, List.cons_append, List.nil_append, List.cons.injEq] at hu
      exact ⟨b, by rw [← hu.1, ← hu.2.1, ← hu.2.2.1]; rfl⟩
  cases t with
  | lf => exact key LF x (Or.inl rfl) (by simpa [Term.bytes] using h)
  | crlf => exact key CR (LF :: x) (Or.inr rfl) (by simpa [Term.bytes] using h)
  | cr => exact key CR x (Or.inr rfl) (by simpa [Term.bytes] using h)

/-- What the general theorem needs to know of the lines. -/
structure LinesOk (p : CsvParams) (t : Text) : Prop where
  deliver : ∀ b, b ∈ t.lines.map Prod.fst ∨ b = t.last →
    (if p.comment.isSome && b.head? == p.comment then Delivers (fun c => readLine c false none) b
     else Delivers (fun c => rowReader p c false) b) ∧ b.head? ≠ some LF ∧ ¬ bom <+: b
  unambiguous : Unambiguous t.lines
  comment : p.comment ≠ some LF ∧ p.comment ≠ some CR

theorem isCommentLine_line (p : CsvParams) (hc : p.comment ≠ some LF ∧ p.comment ≠ some CR)
    (b : Bytes) (t : Term) (x : Bytes) :
    isCommentLine p (b ++ t.bytes ++ x) = (p.comment.isSome && b.head? == p.comment) := by
  cases hcm : p.comment with
  | none => simp [isCommentLine, hcm]
  | some c =>
    rw [hcm] at hc
    simp only [ne_eq, Option.some.injEq] at hc
    cases b with
    | nil =>
      cases t <;> simp [isCommentLine, hcm, Term.bytes]
      · exact Ne.symm hc.1
      · exact Ne.symm hc.2
      · exact Ne.symm hc.2
    | cons a b => simp [isCommentLine, hcm]

theorem isCommentLine_last (p : CsvParams) (b : Bytes) :
    isCommentLine p b = (p.comment.isSome && b.head? == p.comment) := by
  cases hcm : p.comment with
  | none => simp [isCommentLine, hcm]
  | some c => cases b <;> simp [isCommentLine, hcm]

theorem csv_lines (p : CsvParams) (t : Text) (h : LinesOk p t) (k : Nat) :
    wholeN (csvDecode p) ((t.content.filter (isRow p.comment p.skipBlank)).length + k) t.bytes =
      (t.content.filter (isRow p.comment p.skipBlank)).map (fun b => .ok (some ⟨0, b⟩)) ++
        List.replicate k (.ok none) := by
  obtain ⟨lines, last⟩ := t
  have hnil : csvDecode p [] false = .more [] 0 := by simp [csvDecode, textRecord]
  induction lines with
  | nil =>
    obtain ⟨hd, hh, hb⟩ := h.deliver last (Or.inr rfl)
    by_cases hl : last = []
    · subst hl
      simp only [Text.content, Text.bytes, List.map_nil, List.flatMap_nil, List.nil_append, if_true,
        List.filter_nil, List.length_nil, Nat.zero_add]
      exact wholeN_nil k hnil
    · simp only [Text.content, Text.bytes, List.map_nil, List.flatMap_nil, List.nil_append, hl, if_false]
      have hdec : csvDecode p last false = csvDecodeText p last false := csvDecode_nobom p _ hb
      rw [csvDecodeText_eq p last false hl, isCommentLine_last] at hdec
      have hemp : last.isEmpty = false := by cases last <;> simp_all
      by_cases hc : (p.comment.isSome && last.head? == p.comment) = true
      · rw [if_pos hc] at hdec hd
        have hrd := hd.2 hl
        simp only at hrd
        rw [hrd] at hdec
        simp only [csvDecodeText_nil] at hdec
        simp only [isRow, hc, List.filter_cons, Bool.not_true, Bool.false_and, Bool.false_eq_true,
          if_false, List.filter_nil, List.length_nil, Nat.zero_add, List.map_nil, List.nil_append]
        rw [wholeN_congr (csvDecode_noub p) (x := last) (y := []) (by rw [hdec, hnil])]
        exact wholeN_nil k hnil
      · rw [if_neg hc] at hdec hd
        have hrd := hd.2 hl
        simp only at hrd
        simp only [hrd, hemp, Bool.not_false, Bool.or_true, if_true] at hdec
        have hc' : (p.comment.isSome && last.head? == p.comment) = false := by simpa using hc
        simp only [isRow, hc', List.filter_cons, hemp, Bool.and_false, Bool.not_false, Bool.and_self,
          if_true, List.filter_nil, List.length_cons, List.length_nil, Nat.zero_add, Nat.add_comm 1]
        rw [wholeN_got hdec, wholeN_nil k hnil]
        rfl
  | cons l lines ih =>
    obtain ⟨b, tm⟩ := l
    obtain ⟨hd, hh, hb⟩ := h.deliver b (Or.inl (by simp))
    have hrest : LinesOk p ⟨lines, last⟩ := by
      refine ⟨?_, ?_, h.comment⟩
      · intro b' hb'
        apply h.deliver
        rcases hb' with hb' | hb'
        · left; simp at hb' ⊢; exact Or.inr hb'
        · exact Or.inr hb'
      · have := h.unambiguous
        cases tm <;> cases lines <;> simp_all [Unambiguous]
    have ih := ih hrest
    -- what follows does not start with LF if the terminator is CR
    have hcr : tm = .cr → (Text.bytes ⟨lines, last⟩).head? ≠ some LF := by
      intro htm
      subst htm
      cases lines with
      | nil => simpa [Text.bytes] using (h.deliver last (Or.inr rfl)).2.1
      | cons l' lines =>
        obtain ⟨b', t'⟩ := l'
        have hh' := (h.deliver b' (Or.inl (by simp))).2.1
        have hu := h.unambiguous
        simp only [Unambiguous] at hu
        cases b' with
        | cons c b' => simpa [Text.bytes] using hh'
        | nil =>
          have : t' ≠ .lf := by simpa using hu.1
          cases t' with
          | lf => exact absurd rfl this
          | crlf => simp [Text.bytes, Term.bytes]; decide
          | cr => simp [Text.bytes, Term.bytes]; decide
    have hbytes : Text.bytes ⟨(b, tm) :: lines, last⟩ = b ++ tm.bytes ++ Text.bytes ⟨lines, last⟩ := by
      simp [Text.bytes]
    have hnb : ¬ bom <+: b ++ tm.bytes ++ Text.bytes ⟨lines, last⟩ := fun hp =>
      hb (bom_prefix_line b tm _ hp)
    have hdec := csvDecode_nobom p _ hnb
    rw [csvDecodeText_eq p _ false (by cases tm <;> simp [Term.bytes]),
      isCommentLine_line p h.comment] at hdec
    -- the rest is decoded as in the text without the first line
    have hsame : csvDecodeText p (Text.bytes ⟨lines, last⟩) false =
        csvDecode p (Text.bytes ⟨lines, last⟩) false := by
      have hnb' : ¬ bom <+: Text.bytes ⟨lines, last⟩ := by
        cases lines with
        | nil => simpa [Text.bytes] using (h.deliver last (Or.inr rfl)).2.2
        | cons l' lines =>
          intro hp
          apply (h.deliver l'.1 (Or.inl (by simp))).2.2
          apply bom_prefix_line l'.1 l'.2 (Text.bytes ⟨lines, last⟩)
          simpa [Text.bytes] using hp
      exact (csvDecode_nobom p _ hnb').symm
    have hcont : Text.content ⟨(b, tm) :: lines, last⟩ = b :: Text.content ⟨lines, last⟩ := by
      simp [Text.content]
    rw [hbytes, hcont]
    by_cases hc : (p.comment.isSome && b.head? == p.comment) = true
    · rw [if_pos hc] at hdec hd
      have hrd := hd.1 tm _ hcr
      simp only at hrd
      rw [hrd] at hdec
      simp only at hdec
      have hno : isRow p.comment p.skipBlank b = false := by simp only [isRow, hc]; rfl
      simp only [List.filter_cons, hno, Bool.false_eq_true, if_false]
      rw [wholeN_congr (csvDecode_noub p) (y := Text.bytes ⟨lines, last⟩) (by rw [hdec, hsame])]
      exact ih
    · rw [if_neg hc] at hdec hd
      have hrd := hd.1 tm _ hcr
      simp only at hrd
      rw [hrd] at hdec
      simp only at hdec
      have hc' : (p.comment.isSome && b.head? == p.comment) = false := by simpa using hc
      by_cases hk : isRow p.comment p.skipBlank b = true
      · simp only [List.filter_cons, hk, if_true, List.length_cons]
        have hk' : (!p.skipBlank || !b.isEmpty) = true := by
          simp only [isRow, hc'] at hk
          revert hk
          cases p.skipBlank <;> cases b.isEmpty <;> simp
        rw [if_pos hk'] at hdec
        rw [show ∀ a : Nat, a + 1 + k = (a + k) + 1 by intro a; omega, wholeN_got hdec, ih]
        rfl
      · have hk0 : isRow p.comment p.skipBlank b = false := by simpa using hk
        simp only [List.filter_cons, hk0, Bool.false_eq_true, if_false]
        have hk' : (!p.skipBlank || !b.isEmpty) = false := by
          simp only [isRow, hc'] at hk0
          revert hk0
          cases p.skipBlank <;> cases b.isEmpty <;> simp
        rw [hk'] at hdec
        simp only [Bool.false_eq_true, if_false] at hdec
        rw [wholeN_congr (csvDecode_noub p) (y := Text.bytes ⟨lines, last⟩) (by rw [hdec, hsame])]
        exact ih

theorem plain_noLf (b : Bytes) (h : Plain b) : b.head? ≠ some LF := by
  cases b with
  | nil => simp
  | cons c b => simpa using (h c (by simp)).1

/-- Texts without quoting. -/
theorem linesOk_plain (p : CsvParams) (hq : p.quotedNewLines = false) (hm : p.maxLine = none)
    (hc : p.comment ≠ some LF ∧ p.comment ≠ some CR) (t : Text) (hv : t.Valid)
    (hb : ∀ b ∈ t.content, ¬ utf8Bom <+: b) : LinesOk p t := by
  refine ⟨?_, hv.unambiguous, hc⟩
  intro b hmem
  have hplain : Plain b := by
    rcases hmem with h | h
    · obtain ⟨l, hl, rfl⟩ := List.mem_map.1 h
      exact hv.plain l hl
    · rw [h]; exact hv.plainLast
  refine ⟨?_, plain_noLf b hplain, ?_⟩
  · split
    · exact readLine_delivers b hplain
    · have := readLine_delivers b hplain
      simpa [rowReader, hq, hm] using this
  · by_cases hbe : b = []
    · subst hbe; simp [bom]
    · apply hb
      rcases hmem with h | h
      · simp only [Text.content, List.mem_append]; exact Or.inl h
      · subst h
        simp only [Text.content, List.mem_append]
        right
        rw [if_neg hbe]
        simp

/-- Every byte string is a text. -/
theorem text_exists (x : Bytes) : ∃ t : Text, t.Valid ∧ t.bytes = x := by
  induction hn : x.length using Nat.strongRecOn generalizing x with
  | _ n ih =>
    have ext : ∀ (b : Bytes) (tm : Term) (y : Bytes), NoNl b → x = b ++ tm.bytes ++ y →
        (tm = .cr → y.head? ≠ some LF) → ∃ t : Text, t.Valid ∧ t.bytes = x := by
      intro b tm y hb hx hcr
      have hlt : y.length < n := by
        rw [← hn, hx]
        cases tm <;> simp [Term.bytes] <;> omega
      obtain ⟨t, hv, ht⟩ := ih y.length hlt y rfl
      refine ⟨⟨(b, tm) :: t.lines, t.last⟩, ⟨?_, hv.plainLast, ?_⟩, ?_⟩
      · intro l hl
        rcases List.mem_cons.1 hl with rfl | hl
        · exact hb
        · exact hv.plain l hl
      · cases tm with
        | lf => simpa [Unambiguous] using hv.unambiguous
        | crlf => simpa [Unambiguous] using hv.unambiguous
        | cr =>
          obtain ⟨lines, last⟩ := t
          cases lines with
          | nil => simp [Unambiguous]
          | cons l' lines =>
            obtain ⟨b', t'⟩ := l'
            refine ⟨?_, hv.unambiguous⟩
            have := hcr rfl
            rw [← ht] at this
            cases b' with
            | cons c b' => simp
            | nil =>
              right
              rintro rfl
              simp [Text.bytes, Term.bytes] at this
      · rw [hx, ← ht]; simp [Text.bytes]
    cases lineForm x with
    | open_ _ h => exact ⟨⟨[], x⟩, ⟨by simp, h, by simp [Unambiguous]⟩, by simp [Text.bytes]⟩
    | lf b y h => exact ext b .lf y h (by simp [Term.bytes]) (by simp)
    | crlf b y h => exact ext b .crlf y h (by simp [Term.bytes]) (by simp)
    | cr b y h hy => exact ext b .cr y h (by simp [Term.bytes]) (fun _ => hy)

end Mlio
