import Verif.Proofs.LineMark

/-! # C05, C06, C13, C14: text lines, comments and blank lines, byte order mark -/

namespace Mlio

open Spec

theorem textDecode_fun (skip : Bool) : textDecode skip = csvDecode (textParams skip) := by
  funext c ig; exact textDecode_eq skip c ig

theorem csv_readN (p : CsvParams) (data : Bytes) (size : Nat) (hsize : 0 < size) (sched : List Nat)
    (n : Nat) (hg : CsvGood p data) :
    (Reader.init size data sched).readN (csvDecode p) n = wholeN (csvDecode p) n data := by
  rw [readN_eq_wholeN (csv_laws p) _ _ (Reader.init_inv size hsize _ _) (by simpa [Reader.total, Reader.init])]
  simp [Reader.total, Reader.init]

theorem csv_memReadN (p : CsvParams) (data : Bytes) (n : Nat) :
    MemReader.readN (csvDecode p) n ⟨data, []⟩ = wholeN (csvDecode p) n data :=
  memReadN_eq_wholeN (csv_laws p).empty (csvDecode_noub p) n data

/-! ## C05 -/

/-- **C05**, partial.  Text lines read through chunks of any size and any short reads are those of the
text read at once, if no line starts with the byte order mark, except that there may be one in front of the text,
and – unless blank lines are skipped – there is no CRLF.  Missing: texts with CRLF without blank-line skipping and
texts with lines that start with a byte order mark, for which the claim is false (`C05_crlf_violated`,
`C05_bom_violated`). -/
theorem C05_text_chunk_independent_partial (skipBlank : Bool) (data : Bytes)
    (hcrlf : skipBlank = false → ¬ [13, 10] <:+: data)
    (hbom : NoLineMark data ∨ ∃ y, data = utf8Bom ++ y ∧ NoLineMark y)
    (size : Nat) (hsize : 0 < size) (sched : List Nat) (n : Nat) :
    (Reader.init size data sched).readN (textDecode skipBlank) n =
      MemReader.readN (textDecode skipBlank) n ⟨data, []⟩ ∧
    (Reader.init size data sched).readN (textDecode skipBlank) n = wholeN (textDecode skipBlank) n data := by
  rw [textDecode_fun, csv_memReadN]
  have : CsvGood (textParams skipBlank) data := by
    refine ⟨?_, bomOk_of_noLineMark hbom _⟩
    cases skipBlank with
    | true => exact Or.inr (Or.inr ⟨rfl, rfl, by decide, by decide⟩)
    | false => exact Or.inl (hcrlf rfl)
  exact ⟨csv_readN _ _ _ hsize _ _ this, csv_readN _ _ _ hsize _ _ this⟩

-- The hypotheses are met by a text with all three terminators and byte order marks at the start and inside a line.
example : (NoLineMark ([0xEF, 0xBB, 0xBF, 97, 13, 10, 98, 0xEF, 0xBB, 0xBF, 10, 99, 13, 100] : Bytes) ∨
    ∃ y, ([0xEF, 0xBB, 0xBF, 97, 13, 10, 98, 0xEF, 0xBB, 0xBF, 10, 99, 13, 100] : Bytes) = utf8Bom ++ y ∧
      NoLineMark y) :=
  Or.inr ⟨[97, 13, 10, 98, 0xEF, 0xBB, 0xBF, 10, 99, 13, 100], rfl, by unfold NoLineMark; decide⟩

-- A test: the same lines through chunks of 1, 2 and 5 bytes.
example : (Reader.init 1 [97, 13, 10, 98, 10] [1]).readN (textDecode true) 3 =
      [.ok (some ⟨0, [97]⟩), .ok (some ⟨0, [98]⟩), .ok none] ∧
    (Reader.init 2 [97, 13, 10, 98, 10] []).readN (textDecode true) 3 =
      [.ok (some ⟨0, [97]⟩), .ok (some ⟨0, [98]⟩), .ok none] := by decide

/-- **C05 is violated**: a CRLF that straddles a chunk boundary gives an extra empty line.  The text is
`abc\r\nd`; read in chunks of four bytes it has three lines, read at once two. -/
theorem C05_crlf_violated :
    (Reader.init 4 [97, 98, 99, 13, 10, 100] []).readN (textDecode false) 4 =
      [.ok (some ⟨0, [97, 98, 99]⟩), .ok (some ⟨0, []⟩), .ok (some ⟨0, [100]⟩), .ok none] ∧
    MemReader.readN (textDecode false) 4 ⟨[97, 98, 99, 13, 10, 100], []⟩ =
      [.ok (some ⟨0, [97, 98, 99]⟩), .ok (some ⟨0, [100]⟩), .ok none, .ok none] := by decide

/-- **C05 is violated**: whether a byte order mark behind skipped blank lines is removed depends on the
chunk boundaries. -/
theorem C05_bom_violated :
    (Reader.init 3 [10, 10, 10, 0xEF, 0xBB, 0xBF, 120] []).readN (textDecode true) 1 =
      [.ok (some ⟨0, [120]⟩)] ∧
    MemReader.readN (textDecode true) 1 ⟨[10, 10, 10, 0xEF, 0xBB, 0xBF, 120], []⟩ =
      [.ok (some ⟨0, [0xEF, 0xBB, 0xBF, 120]⟩)] := by decide

/-! ## C06 -/

/-- Every byte string is a text in exactly the sense of the specification. -/
theorem C06_every_text (x : Bytes) : ∃ t : Text, t.Valid ∧ t.bytes = x := text_exists x

/-- **C06**, partial.  Reading a text at once returns exactly its lines, then the end of data for
ever.  Missing: lines that start with the byte order mark (they lose it, `C14_violated`), and "never
touches memory outside the buffer" (`C06_reads_past_end_violated`). -/
theorem C06_lines_partial (t : Text) (hv : t.Valid) (hb : ∀ l ∈ t.content, ¬ utf8Bom <+: l) (k : Nat) :
    MemReader.readN (textDecode false) (t.content.length + k) ⟨t.bytes, []⟩ =
      t.content.map (fun l => .ok (some ⟨0, l⟩)) ++ List.replicate k (.ok none) := by
  rw [textDecode_fun, csv_memReadN]
  have hl := linesOk_plain (textParams false) rfl rfl (by simp [textParams]) t hv hb
  have := csv_lines (textParams false) t hl k
  have hf : t.content.filter (isRow (textParams false).comment (textParams false).skipBlank) = t.content := by
    apply List.filter_eq_self.2
    intro l _
    simp [isRow, textParams]
  rwa [hf] at this

theorem textDecode_cr (line : Bytes) (hl : Plain line) (h2 : 2 ≤ line.length) (hb : ¬ utf8Bom <+: line) (ig : Bool) :
    textDecode false (line ++ [13]) ig = .got ⟨0, line⟩ [] := by
  have hs : skipBom (line ++ [13]) ig = some (line ++ [13]) := by
    match line, h2, hb with
    | [a, b], _, _ => simp [skipBom]
    | a :: b :: c :: r, _, hb =>
      simp only [List.cons_append, skipBom]
      rw [if_neg]
      rintro ⟨rfl, rfl, rfl⟩
      exact hb ⟨r, rfl⟩
  have he : (line ++ [13]).isEmpty = false := by cases line <;> rfl
  simp only [textDecode, textRecord, he, hs, textDecodeText, Bool.false_eq_true, if_false]
  rw [readLine_max _ _ _ (by simp), show (13 : UInt8) = CR from rfl, scanLine_cr line [] hl (by simp)]
  simp [tooLong, sliceFirst, subsliceFrom]

/-- One refill of an empty chunk. -/
theorem refill (dec : Bytes → Bool → Dec Record) (hnil : ∀ ig, dec [] ig = .more [] 0) (f : Nat) (s : Stream) (n : Nat)
    (held : Option Nat) (hh : held ≠ some 0) (hn : 0 < n) (hd : s.data ≠ []) :
    ∃ got s' e, got ++ s'.data = s.data ∧ got.length ≤ n ∧ (e = true → s'.data = []) ∧ (e = false → got.length = n) ∧
      got ≠ [] ∧
      Reader.readCore dec (f + 1) ⟨⟨s, n, held, false⟩, []⟩ =
        Reader.readCore dec f ⟨⟨s', n, if e then none else some n, e⟩, got⟩ := by
  obtain ⟨got, s', e, h1, h2, h3, h4, h5⟩ := fillLoop_spec n s n (Nat.le_refl _)
  have hne : got ≠ [] := by
    rintro rfl
    cases e with
    | true => rw [h4 rfl] at h2; exact hd h2.symm
    | false => have := h5 rfl; simp at this; omega
  refine ⟨got, s', e, h2, h3, h4, h5, hne, ?_⟩
  have hns : (⟨s, n, held, false⟩ : ChunkReader).nextSize [] = n := by
    unfold ChunkReader.nextSize
    cases held with
    | none => rfl
    | some k =>
      simp only [List.length_nil]
      rw [if_neg]
      rintro ⟨rfl, _⟩
      exact hh rfl
  have hie : got.isEmpty = false := by cases got with | nil => exact absurd rfl hne | cons => rfl
  rw [Reader.readCore]
  simp only [hnil, growHint, ChunkReader.readChunk, hns, List.length_nil, Nat.sub_zero, h1, Bool.false_eq_true, if_false,
    List.nil_append, Nat.not_lt_zero, gt_iff_lt, hie]

/-- **C05 is violated** for every chunk size, that of the library (32 MiB) too: a line that is one byte shorter than the
chunk and ends in CRLF is followed by an extra empty line, however short the reads are. -/
theorem C05_crlf_any_chunk_size_violated (size : Nat) (hs : 3 ≤ size) (sched : List Nat) :
    (Reader.init size (List.replicate (size - 1) 97 ++ [13, 10]) sched).readN (textDecode false) 2 =
      [.ok (some ⟨0, List.replicate (size - 1) 97⟩), .ok (some ⟨0, []⟩)] ∧
    MemReader.readN (textDecode false) 2 ⟨List.replicate (size - 1) 97 ++ [13, 10], []⟩ =
      [.ok (some ⟨0, List.replicate (size - 1) 97⟩), .ok none] := by
  have hp : Plain (List.replicate (size - 1) 97) := by
    intro c hc
    rw [(List.mem_replicate.1 hc).2]
    decide
  have hb : ¬ utf8Bom <+: List.replicate (size - 1) 97 := by
    intro h
    have := h.subset (show (0xEF : UInt8) ∈ utf8Bom by decide)
    exact absurd (List.mem_replicate.1 this).2 (by decide)
  have hlen : (List.replicate (size - 1) (97 : UInt8)).length = size - 1 := by simp
  constructor
  · generalize hl : List.replicate (size - 1) (97 : UInt8) = line at hp hb hlen
    have hnil : ∀ ig, textDecode false [] ig = .more [] 0 := by intro ig; simp [textDecode, textRecord]
    obtain ⟨got, s', e, h1, h2, h3, h4, _, h6⟩ := refill (textDecode false) hnil ((line ++ [13, 10]).length + 1)
      ⟨line ++ [13, 10], sched⟩ size none (by simp) (by omega) (by simp)
    have he : e = false := by
      cases e with
      | false => rfl
      | true =>
        rw [h3 rfl, List.append_nil] at h1
        rw [h1] at h2
        simp at h2
        omega
    subst he
    have hg : got = line ++ [13] ∧ s'.data = [10] := by
      have hle := h4 rfl
      have e1 : line ++ [13, 10] = (line ++ [13]) ++ [10] := by simp
      simp only at h1
      rw [e1] at h1
      exact List.append_inj h1 (by simp; omega)
    obtain ⟨rfl, hsd⟩ := hg
    have r1 : (Reader.init size (line ++ [13, 10]) sched).read (textDecode false) =
        (.ok (some ⟨0, line⟩), ⟨⟨s', size, some size, false⟩, []⟩) := by
      unfold Reader.read Reader.init
      simp only
      rw [h6, Reader.readCore]
      simp only [textDecode_cr line hp (by omega) hb, Bool.false_eq_true, if_false]
    obtain ⟨got, s'', e, g1, g2, g3, g4, _, g6⟩ := refill (textDecode false) hnil (s'.data.length + 1)
      s' size (some size) (by simp; omega) (by omega) (by rw [hsd]; simp)
    have he : e = true := by
      cases e with
      | true => rfl
      | false =>
        have := g4 rfl
        have := congrArg List.length g1
        rw [hsd] at this
        simp at this
        omega
    subst he
    have hg : got = [10] := by
      rw [g3 rfl, List.append_nil, hsd] at g1
      exact g1
    subst hg
    have r2 : (⟨⟨s', size, some size, false⟩, []⟩ : Reader).read (textDecode false) =
        (.ok (some ⟨0, []⟩), ⟨⟨s'', size, none, true⟩, []⟩) := by
      unfold Reader.read
      simp only
      rw [g6, Reader.readCore]
      have : textDecode false [10] false = .got ⟨0, []⟩ [] := by decide
      simp only [Bool.not_true, this, if_true]
    simp only [Reader.readN, r1, r2]
  · have hv : (⟨[(List.replicate (size - 1) 97, .crlf)], []⟩ : Text).Valid :=
      ⟨by simpa using hp, by simp [Plain], by simp [Unambiguous]⟩
    have := C06_lines_partial _ hv (by simpa [Text.content] using hb) 1
    simpa [Text.content, Text.bytes, Term.bytes] using this

/-- **C06**, with blank lines skipped, through chunks of any size and any short reads. -/
theorem C06_nonblank_lines_partial (t : Text) (hv : t.Valid)
    (hb' : ∀ l ∈ t.content, ¬ utf8Bom <+: l)
    (size : Nat) (hsize : 0 < size) (sched : List Nat) (k : Nat) :
    (Reader.init size t.bytes sched).readN (textDecode true)
        ((t.content.filter (fun l => !l.isEmpty)).length + k) =
      (t.content.filter (fun l => !l.isEmpty)).map (fun l => .ok (some ⟨0, l⟩)) ++
        List.replicate k (.ok none) := by
  have hl := linesOk_plain (textParams true) rfl rfl (by simp [textParams]) t hv hb'
  rw [textDecode_fun, csv_readN _ _ _ hsize _ _
    ⟨Or.inr (Or.inr ⟨rfl, rfl, by decide, by decide⟩), Or.inl hl.markFree⟩]
  have := csv_lines (textParams true) t hl k
  have hf : isRow (textParams true).comment (textParams true).skipBlank = fun l => !l.isEmpty := by
    funext l; simp [isRow, textParams]
  rwa [hf] at this

-- A text with all terminators, an empty line and an unterminated last line meets the hypotheses.
example : (⟨[([97, 98], .crlf), ([], .lf), ([99], .cr)], [100]⟩ : Text).Valid := by
  refine ⟨?_, ?_, ?_⟩ <;> simp [Plain, Unambiguous]

/-- The positions the line scanner reads in a non-empty chunk: none lies beyond the position right
behind the chunk, and all are inside the chunk exactly if the chunk has a line terminator. -/
theorem C06_reads_exact (c : Bytes) (hne : c ≠ []) :
    (∀ i ∈ lineDerefs c, i ≤ c.length) ∧
    ((∀ i ∈ lineDerefs c, i < c.length) ↔ ¬ Plain c) := by
  have key : ∀ (c : Bytes) (k : Nat),
      (∀ i ∈ lineDerefsFrom k c, i ≤ k + c.length) ∧
      (¬ Plain c → ∀ i ∈ lineDerefsFrom k c, i < k + c.length) ∧
      (Plain c → c ≠ [] → k + c.length ∈ lineDerefsFrom k c) := by
    intro c
    induction c with
    | nil => intro k; simp [lineDerefsFrom, Plain]
    | cons a c ih =>
      intro k
      simp only [lineDerefsFrom]
      by_cases h1 : a = LF
      · subst h1; simp [Plain]
      · rw [if_neg h1]
        by_cases h2 : a = CR
        · subst h2
          cases c <;> simp [Plain]
        · rw [if_neg h2]
          obtain ⟨i1, i2, i3⟩ := ih (k + 1)
          have hp : Plain (a :: c) ↔ Plain c := by
            simp only [Plain, List.mem_cons, forall_eq_or_imp]
            exact ⟨fun h => h.2, fun h => ⟨⟨h1, h2⟩, h⟩⟩
          rw [hp]
          refine ⟨?_, ?_, ?_⟩
          · intro i hi
            rcases List.mem_cons.1 hi with rfl | hi
            · simp
            · have := i1 i hi; simp; omega
          · intro hc i hi
            have hlen : c ≠ [] := by rintro rfl; exact hc (by simp [Plain])
            have : 0 < c.length := List.length_pos_iff.2 hlen
            rcases List.mem_cons.1 hi with rfl | hi
            · simp; omega
            · have := i2 hc i hi; simp; omega
          · intro hc _
            by_cases hl : c = []
            · subst hl; simp
            · have := i3 hc hl
              simp only [List.mem_cons, List.length_cons]
              right
              rw [show k + (c.length + 1) = k + 1 + c.length by omega]
              exact this
  obtain ⟨k1, k2, k3⟩ := key c 0
  have hpos : 0 < c.length := List.length_pos_iff.2 hne
  simp only [Nat.zero_add] at k1 k2 k3
  refine ⟨?_, ?_, ?_⟩
  · intro i hi
    rcases List.mem_cons.1 hi with rfl | hi
    · omega
    · exact k1 i hi
  · intro h hp
    have := h _ (List.mem_cons_of_mem _ (k3 hp hne))
    omega
  · intro hp i hi
    rcases List.mem_cons.1 hi with rfl | hi
    · omega
    · exact k2 hp i hi

/-- **C06 is violated** for every chunk without line terminator: the byte right behind it is read. -/
theorem C06_reads_past_end_violated (c : Bytes) (hne : c ≠ []) (hp : Plain c) :
    ∃ i ∈ lineDerefs c, c.length ≤ i := by
  have h := mt (C06_reads_exact c hne).2.1 (by simpa using hp)
  simpa using h

example : ([97, 98] : Bytes) ≠ [] ∧ Plain [97, 98] ∧ lineDerefs [97, 98] = [0, 1, 2] := by
  refine ⟨by decide, ?_, by decide⟩
  simp [Plain]

/-! ## C13 -/

/-- **C13**, partial.  Without quoted newlines the CSV rows are exactly the text lines that do not start
with the comment character and are not empty (if empty lines are skipped), in order.  Missing: lines that
start with the byte order mark (`C14_violated`). -/
theorem C13_comment_blank_partial (p : CsvParams) (hq : p.quotedNewLines = false) (hm : p.maxLine = none)
    (hc : p.comment ≠ some 10 ∧ p.comment ≠ some 13) (t : Text) (hv : t.Valid)
    (hb : ∀ l ∈ t.content, ¬ utf8Bom <+: l) (k : Nat) :
    let rows := t.content.filter fun l =>
      (p.comment = none ∨ l.head? ≠ p.comment) ∧ (p.skipBlank = true → l ≠ [])
    MemReader.readN (csvDecode p) (rows.length + k) ⟨t.bytes, []⟩ =
      rows.map (fun l => .ok (some ⟨0, l⟩)) ++ List.replicate k (.ok none) := by
  intro rows
  have hrows : rows = t.content.filter (isRow p.comment p.skipBlank) := by
    apply List.filter_congr
    intro l _
    unfold isRow
    rw [Bool.eq_iff_iff]
    cases hcm : p.comment <;> cases p.skipBlank <;> cases l <;> simp
  rw [csv_memReadN, hrows]
  exact csv_lines p t (linesOk_plain p hq hm hc t hv hb) k

/-- **C13** through chunks of any size and any short reads, when no line starts with the byte order mark and either
there is no CRLF or blank lines are skipped. -/
theorem C13_comment_blank_chunked_partial (p : CsvParams) (hq : p.quotedNewLines = false)
    (hm : p.maxLine = none)
    (hc : p.comment ≠ some 10 ∧ p.comment ≠ some 13) (t : Text) (hv : t.Valid)
    (hb : ∀ l ∈ t.content, ¬ utf8Bom <+: l)
    (hcrlf : ¬ [13, 10] <:+: t.bytes ∨ (p.skipBlank = true ∧ p.delimiter ≠ 10 ∧ p.quote ≠ 10))
    (size : Nat) (hsize : 0 < size) (sched : List Nat) (k : Nat) :
    let rows := t.content.filter fun l =>
      (p.comment = none ∨ l.head? ≠ p.comment) ∧ (p.skipBlank = true → l ≠ [])
    (Reader.init size t.bytes sched).readN (csvDecode p) (rows.length + k) =
      rows.map (fun l => .ok (some ⟨0, l⟩)) ++ List.replicate k (.ok none) := by
  intro rows
  rw [csv_readN p _ size hsize sched _ ⟨by
    rcases hcrlf with h | ⟨h1, h2, h3⟩
    · exact Or.inl h
    · exact Or.inr (Or.inr ⟨h1, hm, h2, h3⟩), Or.inl (linesOk_plain p hq hm hc t hv hb).markFree⟩, ← csv_memReadN]
  exact C13_comment_blank_partial p hq hm hc t hv hb k

-- `#c\n\na#\r\n` with comment character `#`: one row.
example : (⟨[([35, 99], .lf), ([], .lf), ([97, 35], .crlf)], []⟩ : Text).Valid ∧
    MemReader.readN (csvDecode { comment := some 35 }) 2 ⟨[35, 99, 10, 10, 97, 35, 13, 10], []⟩ =
      [.ok (some ⟨0, [97, 35]⟩), .ok none] := by
  refine ⟨⟨?_, ?_, ?_⟩, by decide⟩ <;> simp [Plain, Unambiguous]

/-! ## C14 -/

/-- **C14**, first half: a byte order mark at the start of the stream does not change what is read. -/
theorem C14_bom_at_start_partial (p : CsvParams) (x : Bytes) (h : ¬ utf8Bom <+: x) (n : Nat) :
    MemReader.readN (csvDecode p) n ⟨utf8Bom ++ x, []⟩ = MemReader.readN (csvDecode p) n ⟨x, []⟩ := by
  rw [csv_memReadN, csv_memReadN]
  apply wholeN_congr (csvDecode_noub p)
  rw [show utf8Bom = bom from rfl, csvDecode_bom, csvDecode_nobom p x h]

/-- **C14**, first half, through chunks of any size and any short reads. -/
theorem C14_bom_at_start_chunked_partial (p : CsvParams) (x : Bytes) (h : NoLineMark x)
    (hcrlf : ¬ [13, 10] <:+: x ∨ (p.quotedNewLines = true ∧ p.comment = none) ∨
      (p.skipBlank = true ∧ p.maxLine = none ∧ p.delimiter ≠ 10 ∧ p.quote ≠ 10))
    (size size' : Nat) (hs : 0 < size) (hs' : 0 < size') (sched sched' : List Nat) (n : Nat) :
    (Reader.init size (utf8Bom ++ x) sched).readN (csvDecode p) n =
      (Reader.init size' x sched').readN (csvDecode p) n := by
  have hp : ¬ utf8Bom <+: x := h.1
  have hcr : CrlfOk p (utf8Bom ++ x) := by
    rcases hcrlf with h1 | h1
    · left
      rintro ⟨a, b, hab⟩
      apply h1
      simp only [utf8Bom, List.cons_append, List.nil_append] at hab
      match a with
      | [] => simp at hab; exact absurd hab.1 (by decide)
      | [_] => simp at hab; exact absurd hab.2.1 (by decide)
      | [_, _] => simp at hab; exact absurd hab.2.2.1 (by decide)
      | _ :: _ :: _ :: a =>
        simp at hab
        exact ⟨a, b, by simp [hab.2.2.2]⟩
    · exact Or.inr h1
  have hcr' : CrlfOk p x := hcrlf
  rw [csv_readN p _ size hs sched n ⟨hcr, bomOk_of_noLineMark (Or.inr ⟨x, rfl, h⟩) p⟩,
    csv_readN p _ size' hs' sched' n ⟨hcr', bomOk_of_noLineMark (Or.inl h) p⟩, ← csv_memReadN, ← csv_memReadN]
  exact C14_bom_at_start_partial p x hp n

/-- **C14**, second half, partial: inside a line – not at its start – the bytes of a byte order mark are
data.  (A special case of `C06_lines_partial`, which only excludes lines that start with the mark.)
Missing: lines that start with it. -/
theorem C14_bom_inside_line_partial (a b : Bytes) (hpa : Plain (a ++ utf8Bom ++ b))
    (hna : ¬ utf8Bom <+: a ++ utf8Bom ++ b) (k : Nat) :
    MemReader.readN (textDecode false) (1 + k) ⟨a ++ utf8Bom ++ b ++ [10], []⟩ =
      .ok (some ⟨0, a ++ utf8Bom ++ b⟩) :: List.replicate k (.ok none) := by
  have hv : (⟨[(a ++ utf8Bom ++ b, .lf)], []⟩ : Text).Valid :=
    ⟨by simpa using hpa, by simp [Plain], by simp [Unambiguous]⟩
  have := C06_lines_partial _ hv (by simpa [Text.content] using hna) k
  simpa [Text.content, Text.bytes, Term.bytes] using this

example : Plain ([97] ++ utf8Bom ++ [98]) ∧ ¬ utf8Bom <+: [97] ++ utf8Bom ++ [98] := by
  constructor
  · simp [Plain, utf8Bom]
  · decide

/-- **C14 is violated**: the byte order mark is removed at the start of every line. -/
theorem C14_violated :
    MemReader.readN (textDecode false) 3 ⟨[97, 10, 0xEF, 0xBB, 0xBF, 98, 10], []⟩ =
      [.ok (some ⟨0, [97]⟩), .ok (some ⟨0, [98]⟩), .ok none] := by decide

end Mlio
