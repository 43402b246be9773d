import Verif.Proofs.EndToEnd

/-!
# C66: from data stores to examples
-/

namespace Mlio
open Spec

/-- A text file of a dataset: its text, how it is encoded and the data store that holds it. -/
structure TextFile (m : SrcClass) where
  text : Text
  enc : Encoding
  file : StoreFile m

/-- The file is one that the reader reads as it should: see `Stored`; and no line starts with a byte order mark
(`C14_violated`). -/
structure TextFile.Good {m : SrcClass} (f : TextFile m) : Prop where
  valid : f.text.Valid
  noMark : ∀ l ∈ f.text.content, ¬ utf8Bom <+: l
  stored : Stored False f.enc f.text.bytes f.file

/-- The lines of a dataset. -/
def datasetLines {m : SrcClass} (files : List (TextFile m)) : List Bytes := files.flatMap fun f => f.text.content

theorem rowInstances_flat {m : SrcClass} (files : List (TextFile m)) :
    (rowInstances (files.map fun f => f.text.content)).map (fun i => i.bits.getD []) = datasetLines files := by
  rw [rowInstances_bits]
  simp [datasetLines, List.flatMap]

/-- The core reader of a `Text_line_reader` yields the lines. -/
theorem textLineCore_yields {m : SrcClass} (files : List (TextFile m)) (hg : ∀ f ∈ files, f.Good) :
    ∃ fuel0, ∀ fuel, fuel0 ≤ fuel →
      (textLineCore unicodeCodec m fuel (files.map fun f => f.file.stream)).Yields
        (textLineCore unicodeCodec m fuel (files.map fun f => f.file.stream)).init
        (rowInstances (files.map fun f => f.text.content)) (.ok none) := by
  refine ⟨(files.map fun f => f.text.bytes.length).sum + (files.map fun f => f.file.bytes.length).sum +
    (files.map fun f => f.text.content).flatten.length + 5,
    fun fuel hf => ?_⟩
  obtain ⟨rs, h1, h2⟩ := stores_hold (textParams false) fuel (files.map fun f => (f.file.stream, f.text.content)) (by
    intro q hq
    obtain ⟨f, hfm, rfl⟩ := List.mem_map.1 hq
    have hgf := hg f hfm
    refine stored_rows hgf.stored (textParams false) False.elim
      (linesOk_plain (textParams false) rfl rfl (by simp [textParams]) f.text hgf.valid hgf.noMark).markFree
      (text_rowsOf f.text hgf.valid hgf.noMark) fuel ?_ ?_
    · have : f.text.bytes.length ≤ (files.map fun f => f.text.bytes.length).sum :=
        length_le_sum _ _ (List.mem_map.2 ⟨f, hfm, rfl⟩)
      omega
    · have : f.file.bytes.length ≤ (files.map fun f => f.file.bytes.length).sum :=
        length_le_sum _ _ (List.mem_map.2 ⟨f, hfm, rfl⟩)
      omega)
  simp only [List.map_map] at h1 h2
  have := core_rows _ rs (files.map fun f => f.text.content)
    (by rw [List.map_map]; exact h2) fuel (by omega)
  have e : (files.map fun f => f.file.stream).map (lineStore unicodeCodec m fuel none) = rs.map (fun r => .ok (some r)) := by
    rw [List.map_map]; exact h1
  have e2 : textLineCore unicodeCodec m fuel (files.map fun f => f.file.stream) =
      lineCore unicodeCodec m (csvDecode (textParams false)) fuel (rs.map fun r => .ok (some r)) := by
    unfold textLineCore
    rw [e, textDecode_fun]
  rw [e2]
  exact this

/-- **C66**, partial: for every dataset of text files in UTF-8, UTF-16 or UTF-32, whatever streams hold them, with every
choice of the options, batch size, number of workers and of prefetched batches, under every schedule, in every epoch
(the first one and those after resets): what the reader has delivered is a prefix of the batches of the selected lines,
in the order of the epoch; when it has signalled the end, it is all of them; and it never fails.

The fuel bounds the loops of the model; any large enough amount will do.  Missing: the files that `Stored` and
`TextFile.Good` leave out, for which the reader is known to be wrong. -/
theorem C66_text_lines_partial {m : SrcClass} (R : Rng) (hR : R.Lawful) (o : ReadOptions) (files : List (TextFile m))
    (hg : ∀ f ∈ files, f.Good) (hlen : (datasetLines files).length < 2 ^ 64 - 1)
    (b : Nat) (hb : 0 < b) (l : LastHandling) (hl : l ≠ .padWarn) (P Q : Nat) (hP : 0 < P) :
    ∃ fuel0, ∀ fuel, fuel0 ≤ fuel → ∀ r,
      makeInstanceReader R o (textLineCore unicodeCodec m fuel (files.map fun f => f.file.stream)) = some r →
      ∀ s : PState (batched b l r) LinesExample, Reachable P Q textLineDecode s →
      ∃ lines, EpochOrder o (selected o (datasetLines files)) lines ∧
        delivered s.out <+: (batches b l lines).map lineExample ∧
        (.ok none ∈ s.out → delivered s.out = (batches b l lines).map lineExample) ∧
        (∀ e, .err e ∉ s.out) ∧ ∀ w, .ub w ∉ s.out := by
  obtain ⟨fuel0, hy⟩ := textLineCore_yields files hg
  refine ⟨fuel0, fun fuel hf r hm s hr => ?_⟩
  have hflat := rowInstances_flat files
  have hlen' : (rowInstances (files.map fun f => f.text.content)).length < 2 ^ 64 - 1 := by
    rw [← List.length_map (fun i : Inst => i.bits.getD []), hflat]; exact hlen
  obtain ⟨ys, h1, h2, h3, h4, h5⟩ := dataset_epochs R hR o _ _ (renews_of_resets (fun _ => rfl) (hy fuel hf)) hlen' b hb l hl r hm P Q hP
    textLineDecode s hr
  refine ⟨ys.map fun i => i.bits.getD [], ?_, ?_, ?_, ?_, h5⟩
  · rw [← hflat, selected_map]
    exact epochOrder_map _ o _ _ h1
  · rw [← examples_lines b hb]; exact h2
  · rw [← examples_lines b hb]; exact fun hx => (h3 hx).1
  · intro e he
    obtain ⟨q, hq, hd⟩ := h4 e he
    have hfit := batches_fit b hb l ys q hq
    rw [textLineDecode_ok q hfit.1] at hd
    cases hd

/-- Two files: `aé`, LF, `b` in UTF-16 (little endian) in memory, and `c`, CRLF, LF, `d` after a byte order mark in a
stream that cannot seek and reads a byte at a time. -/
def sampleFiles : List (TextFile anySrc) :=
  [⟨⟨[([97, 0xC3, 0xA9], .lf)], [98]⟩, .utf16 false, ⟨[0xFF, 0xFE, 97, 0, 0xE9, 0, 10, 0, 98, 0], true, true,
    AnyStream.new [0xFF, 0xFE, 97, 0, 0xE9, 0, 10, 0, 98, 0] true true []⟩⟩,
   ⟨⟨[([99], .crlf), ([], .lf)], [100]⟩, .utf8Mark, ⟨[0xEF, 0xBB, 0xBF, 99, 13, 10, 10, 100], false, false,
    AnyStream.new [0xEF, 0xBB, 0xBF, 99, 13, 10, 10, 100] false false [0, 0, 0]⟩⟩]

theorem sampleFiles_good : ∀ f ∈ sampleFiles, f.Good := by
  intro f hf
  simp only [sampleFiles, List.mem_cons, List.not_mem_nil, or_false] at hf
  rcases hf with rfl | rfl
  · refine ⟨⟨by simp [Plain], by simp [Plain], by simp [Unambiguous]⟩, by simp [Text.content, utf8Bom], ?_⟩
    exact ⟨anySrc_source _ _ _ _ _, ⟨['a', 'é', '\n', 'b'], by decide, by decide⟩, by simp, by simp, by simp [Text.bytes],
      Or.inr (Or.inl (by simp [Text.bytes, Term.bytes, chunkSize]))⟩
  · refine ⟨⟨by simp [Plain], by simp [Plain], by simp [Unambiguous]⟩, by simp [Text.content, utf8Bom], ?_⟩
    exact ⟨anySrc_source _ _ _ _ _, (by decide : ([0xEF, 0xBB, 0xBF, 99, 13, 10, 10, 100] : Bytes) = _), by simp, by simp, by simp, Or.inr (Or.inl (by simp [Text.bytes, Term.bytes, chunkSize]))⟩

/-- The hypotheses of `C66_text_lines_partial` hold for the sample, with shuffling, and the lines are as they should be. -/
example : (∀ f ∈ sampleFiles, f.Good) ∧ trivialRng.Lawful ∧
    datasetLines sampleFiles = [[97, 0xC3, 0xA9], [98], [99], [], [100]] ∧
    (batches 2 .pad (datasetLines sampleFiles)).map lineExample =
      [⟨[[97, 0xC3, 0xA9], [98]], 0⟩, ⟨[[99], []], 0⟩, ⟨[[100], []], 1⟩] := by
  refine ⟨sampleFiles_good, ⟨fun _ _ => Nat.le_refl _, fun _ _ => List.Perm.refl _⟩, by decide, by decide⟩

end Mlio
