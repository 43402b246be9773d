import Verif.Proofs.RetryText

/-! # C103 for rows and lines -/

namespace Mlio
open Spec Machine

/-- **C103** for the rows of a CSV text over a stream, partial: once reading a row has failed – because the row is longer than
`max_line_length` allows or has an open quote – it fails in the same way for ever; after the end it says so for ever.
Missing: texts with lines that start with a byte order mark, for which it is false (`C103_csv_violated`), and CRLF in the cases of
`C07_quoted_chunk_independent_partial`. -/
theorem C103_csv_partial (p : CsvParams) (data : Bytes)
    (hc : ¬ [13, 10] <:+: data ∨ (p.quotedNewLines = true ∧ p.comment = none) ∨
      (p.skipBlank = true ∧ p.maxLine = none ∧ p.delimiter ≠ 10 ∧ p.quote ≠ 10))
    (hbom : NoLineMark data ∨ ∃ y, data = utf8Bom ++ y ∧ NoLineMark y)
    (size : Nat) (hsize : 0 < size) (sched : List Nat) :
    (∀ e, Sticky (streamMachine (csvDecode p)) (Reader.init size data sched) e) ∧
      StaysAtEnd (streamMachine (csvDecode p)) (Reader.init size data sched) := by
  have hb := bomOk_of_noLineMark hbom p
  have hr := fun n => (streamMachine_outs (csvDecode p) (Reader.init size data sched) n).trans
    (csv_readN p data size hsize sched n ⟨hc, hb⟩)
  refine ⟨fun e i j hij h => ?_, fun i j hij h => ?_⟩
  · rw [hr] at h ⊢
    exact csv_whole_stays p (.inr ⟨e, rfl⟩) i j data hb hij h
  · rw [hr] at h ⊢
    exact csv_whole_stays p (.inl rfl) i j data hb hij h

/-- **C103** for the rows of a CSV text in memory, partial: the same, with any line ends.
Missing: texts with lines that start with a byte order mark (`C103_csv_violated`). -/
theorem C103_csv_memory_partial (p : CsvParams) (data : Bytes)
    (hbom : NoLineMark data ∨ ∃ y, data = utf8Bom ++ y ∧ NoLineMark y) :
    (∀ e, Sticky (memoryMachine (csvDecode p)) ⟨data, []⟩ e) ∧ StaysAtEnd (memoryMachine (csvDecode p)) ⟨data, []⟩ := by
  have hb := bomOk_of_noLineMark hbom p
  have hr := fun n => (memoryMachine_outs (csvDecode p) ⟨data, []⟩ n).trans (csv_memReadN p data n)
  refine ⟨fun e i j hij h => ?_, fun i j hij h => ?_⟩
  · rw [hr] at h ⊢
    exact csv_whole_stays p (.inr ⟨e, rfl⟩) i j data hb hij h
  · rw [hr] at h ⊢
    exact csv_whole_stays p (.inl rfl) i j data hb hij h

/-- **C103** for the lines of a text, partial: after the end there is nothing more, over streams and in memory.
Missing: texts with lines that start with a byte order mark, and over streams CRLF if blank lines are kept. -/
theorem C103_lines_partial (skipBlank : Bool) (data : Bytes)
    (hbom : NoLineMark data ∨ ∃ y, data = utf8Bom ++ y ∧ NoLineMark y) :
    StaysAtEnd (memoryMachine (textDecode skipBlank)) ⟨data, []⟩ ∧
      ((skipBlank = false → ¬ [13, 10] <:+: data) → ∀ size, 0 < size → ∀ sched,
        StaysAtEnd (streamMachine (textDecode skipBlank)) (Reader.init size data sched)) := by
  rw [textDecode_fun]
  refine ⟨(C103_csv_memory_partial _ data hbom).2, fun hcrlf size hsize sched => (C103_csv_partial _ data ?_ hbom size hsize sched).2⟩
  cases skipBlank with
  | true => exact .inr (.inr ⟨rfl, rfl, by decide, by decide⟩)
  | false => exact .inl (hcrlf rfl)

-- A text that meets the hypotheses of all three, with a byte order mark in front of it and rows that are too long.
example : ¬ ([13, 10] : Bytes) <:+: [0xEF, 0xBB, 0xBF, 97, 10, 98, 98, 98, 98, 98, 10, 99] ∧
    ∃ y, ([0xEF, 0xBB, 0xBF, 97, 10, 98, 98, 98, 98, 98, 10, 99] : Bytes) = utf8Bom ++ y ∧ NoLineMark y :=
  ⟨by decide, [97, 10, 98, 98, 98, 98, 98, 10, 99], rfl, by unfold NoLineMark; decide⟩

example : (streamMachine (csvDecode { maxLine := some 4 })).outs 4
      (Reader.init 2 [0xEF, 0xBB, 0xBF, 97, 10, 98, 98, 98, 98, 98, 10, 99] [1]) =
    [.ok (some ⟨0, [97]⟩), .err .recordTooLarge, .err .recordTooLarge, .err .recordTooLarge] := by decide

/-- **C103 is violated** by the CSV reader: the row behind a comment is too long and reading it fails.  The comment is gone then, so the
next call takes the byte order mark in front of the row for one in front of the text, drops it and returns the row. -/
theorem C103_csv_violated :
    (memoryMachine (csvDecode { maxLine := some 4, comment := some 35 })).outs 3
        ⟨[35, 10, 0xEF, 0xBB, 0xBF, 98, 98, 10, 99], []⟩ =
      [.err .recordTooLarge, .ok (some ⟨0, [98, 98]⟩), .ok (some ⟨0, [99]⟩)] ∧
    ¬ Sticky (memoryMachine (csvDecode { maxLine := some 4, comment := some 35 }))
        ⟨[35, 10, 0xEF, 0xBB, 0xBF, 98, 98, 10, 99], []⟩ .recordTooLarge := by
  refine ⟨by decide, fun h => ?_⟩
  exact absurd (h 0 1 (by decide) (by decide)) (by decide)

/-- The same without comments: a text with two byte order marks in front of it. -/
theorem C103_two_marks_violated :
    ¬ Sticky (memoryMachine (csvDecode { maxLine := some 4 }))
        ⟨[0xEF, 0xBB, 0xBF, 0xEF, 0xBB, 0xBF, 98, 98, 10, 99], []⟩ .recordTooLarge :=
  fun h => absurd (h 0 1 (by decide) (by decide)) (by decide)

end Mlio
