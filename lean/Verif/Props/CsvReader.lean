import Verif.Proofs.CsvReader

/-!
# C67: from CSV files to examples
-/

namespace Mlio
open Spec

variable {V : Type}

/-- **C67**, partial: for every dataset of CSV files – tables written by the quoting rule, with any line terminators, in
UTF-8, UTF-16 or UTF-32, with or without headers, whatever streams hold them – with every choice of the options, under
every schedule, in every epoch: what the reader has delivered are the first of the deliverable batches of the selected
data rows, in the order of the epoch, each value parsed and at its place; when it has signalled the end, it is all of them,
and then no bad row was to be reported; it fails only if a row is bad and that is to be an error.

Comments, blank lines, line limits and field limits are covered.

Missing: files that `CsvFile.Good` leaves out, and with `has_single_header` a first file
without header (`C35_single_header_violated`). -/
theorem C67_csv_rows_partial {m : SrcClass} (R : Rng) (hR : R.Lawful) (o : ReadOptions) (p : CsvParams) (co : CsvOpts) (hp : Plainly p co)
    (files : List (CsvFile m)) (hg : ∀ f ∈ files, f.Good p)
    (hsingle : co.singleHeader = true → ∀ h f, co.headerRow = some h → files.head? = some f →
      co.columnNames ≠ [] ∨ h < f.table.values.length)
    (limit : FieldLimit) (warnBad : Bool) (bad : BadHandling) (cols : List (CsvCol V)) (dflt : V)
    (dec : Batch Inst → Except Err (Option (CsvExample V))) (hdec : CsvDecodes co.tok limit warnBad bad cols dflt dec)
    (hlen : (datasetRows co files).length < 2 ^ 64 - 1)
    (b : Nat) (hb : 0 < b) (l : LastHandling) (hl : l ≠ .padWarn) (P Q : Nat) (hP : 0 < P) :
    ∃ fuel0, ∀ fuel, fuel0 ≤ fuel → ∀ r,
      makeInstanceReader R o (csvCore unicodeCodec m p co none fuel (files.map fun f => f.file.stream)) = some r →
      ∀ s : PState (batched b l r) (CsvExample V), Reachable P Q dec s →
      ∃ rows, EpochOrder o (selected o (datasetRows co files)) rows ∧
        (∀ (i : Nat) ex, (delivered s.out)[i]? = some ex →
          ∃ q, (deliverable (goodBatch co.tok.maxField limit cols) bad (batches b l rows))[i]? = some q ∧ HoldsRows co.tok.maxField limit cols q ex) ∧
        (.ok none ∈ s.out →
          (delivered s.out).length = (deliverable (goodBatch co.tok.maxField limit cols) bad (batches b l rows)).length ∧
          (bad = .error → ∀ q ∈ batches b l rows, goodBatch co.tok.maxField limit cols q = true)) ∧
        (∀ e, .err e ∈ s.out → e = .invalidInstance ∧ bad = .error ∧
          ∃ q ∈ batches b l rows, goodBatch co.tok.maxField limit cols q = false) ∧
        ∀ w, .ub w ∉ s.out := by
  obtain ⟨fuel0, hy⟩ := csvCore_renews hp files hg hsingle
  refine ⟨fuel0, fun fuel hf r hm s hr => ?_⟩
  obtain ⟨f1, f2⟩ := dataBytes_fields hp files hg
  have hbits := rowInstances_bits (dataBytes p co files)
  have hflat : (rowInstances (dataBytes p co files)).map (fun i => rowFields co.tok (i.bits.getD [])) =
      datasetRows co files := by
    rw [← f1, ← hbits, List.map_map]
    rfl
  have hlen' : (rowInstances (dataBytes p co files)).length < 2 ^ 64 - 1 := by
    rw [← List.length_map (fun i : Inst => rowFields co.tok (i.bits.getD [])), hflat]; exact hlen
  obtain ⟨ys, h1, h2, h3, h4, h5⟩ := dataset_epochs R hR o _ _ (hy fuel hf) hlen' b hb l hl r hm P Q hP dec s hr
  have hmem : ∀ i ∈ ys, tokenize co.tok (i.bits.getD []) =
        ((rowFields co.tok (i.bits.getD [])).map (cutField co.tok.maxField), .ok ()) := by
    intro i hi
    have hi := selected_mem o _ i (epochOrder_mem o _ _ h1 i hi)
    refine f2 _ ?_
    rw [← hbits]
    exact List.mem_map.2 ⟨i, hi, rfl⟩
  have hd : ∀ q ∈ batches b l ys, _ := fun q hq =>
    csvDecodes_batch hdec q (batches_fit b hb l ys q hq).1 (fun i hi => hmem i (batches_mem b hb l ys q hq i hi))
  obtain ⟨e1, e2⟩ := examples_deliverable dec (fun q => q.map fun i => rowFields co.tok (i.bits.getD []))
    (goodBatch co.tok.maxField limit cols) bad (HoldsRows co.tok.maxField limit cols) (batches b l ys) hd
  refine ⟨ys.map fun i => rowFields co.tok (i.bits.getD []), ?_, ?_, ?_, ?_, h5⟩
  · rw [← hflat, selected_map]
    exact epochOrder_map _ o _ _ h1
  · intro i ex hi
    obtain ⟨t, ht⟩ := h2
    rw [batches_map]
    exact e2 i ex (by
      rw [← ht, List.getElem?_append_left (List.getElem?_eq_some_iff.1 hi).1]; exact hi)
  · intro hx
    obtain ⟨g1, g2⟩ := h3 hx
    rw [batches_map]
    refine ⟨by rw [g1, e1], ?_⟩
    rintro rfl q' hq'
    obtain ⟨q, hq, rfl⟩ := List.mem_map.1 hq'
    cases hgq : goodBatch co.tok.maxField limit cols (q.map fun i => rowFields co.tok (i.bits.getD [])) with
    | true => rfl
    | false =>
      have := hd q hq
      rw [hgq] at this
      obtain ⟨x, hx⟩ := g2 q hq
      rw [hx] at this
      simp at this
  · intro e he
    obtain ⟨q, hq, hd'⟩ := h4 e he
    have := hd q hq
    rw [batches_map]
    split at this
    · obtain ⟨ex, h, _⟩ := this
      rw [hd'] at h
      cases h
    · next hn =>
      simp only [Bool.or_eq_true, not_or, Bool.not_eq_true] at hn
      split at this
      · next hbad =>
        rw [hd'] at this
        cases this
        exact ⟨rfl, hbad, _, List.mem_map.2 ⟨q, hq, rfl⟩, hn.1.1⟩
      · rw [hd'] at this
        cases this

/-- There is a decode function of the CSV reader. -/
theorem csvDecodes_exists (tok : TokParams) (limit : FieldLimit) (warnBad : Bool) (h : BadHandling)
    (cols : List (CsvCol V)) (dflt : V) (hser : ∀ n, runSerial h cols.length n = true) :
    ∃ dec, CsvDecodes tok limit warnBad h cols dflt dec := by
  refine ⟨fun q => toDecode (fun _ => makeExample q.size
      (decodeSer (RowCfg.of tok limit warnBad h) h cols (q.instances.map fun i => i.bits.getD []) (Tok.init []) 0
        (makeTensors cols dflt q.size))) q, fun q => ⟨_, ?_, rfl⟩⟩
  unfold DecodeBatch
  rw [if_pos (hser _)]

/-- Two files with headers `a,b`: `1,2` / `# note` / `"3",4` with CRLF in UTF-16 (big endian), and `5,6x`, a blank line and
`7,89` in a stream that cannot seek. -/
def sampleCsv : List (CsvFile anySrc) :=
  [⟨⟨[(.row [⟨[97], false⟩, ⟨[98], false⟩], .crlf), (.row [⟨[49], false⟩, ⟨[50], false⟩], .crlf), (.other [35, 120], .crlf),
      (.row [⟨[51], true⟩, ⟨[52], false⟩], .crlf)], .other []⟩, .utf16 true,
    ⟨[0xFE, 0xFF, 0, 97, 0, 44, 0, 98, 0, 13, 0, 10, 0, 49, 0, 44, 0, 50, 0, 13, 0, 10, 0, 35, 0, 120, 0, 13, 0, 10, 0, 34, 0, 51,
      0, 34, 0, 44, 0, 52, 0, 13, 0, 10], false, true,
      AnyStream.new [0xFE, 0xFF, 0, 97, 0, 44, 0, 98, 0, 13, 0, 10, 0, 49, 0, 44, 0, 50, 0, 13, 0, 10, 0, 35, 0, 120, 0, 13, 0, 10,
        0, 34, 0, 51, 0, 34, 0, 44, 0, 52, 0, 13, 0, 10] false true [3, 1]⟩⟩,
   ⟨⟨[(.row [⟨[97], false⟩, ⟨[98], false⟩], .lf), (.row [⟨[53], false⟩, ⟨[54, 120], false⟩], .lf), (.other [], .lf)],
      .row [⟨[55], false⟩, ⟨[56, 57], false⟩]⟩, .utf8,
    ⟨[97, 44, 98, 10, 53, 44, 54, 120, 10, 10, 55, 44, 56, 57], false, false,
      AnyStream.new [97, 44, 98, 10, 53, 44, 54, 120, 10, 10, 55, 44, 56, 57] false false []⟩⟩]

/-- Comments start with `#`, and lines have fewer than 10 bytes. -/
def sampleParams : CsvParams := { comment := some 35, maxLine := some 10 }

theorem sampleCsv_good : ∀ f ∈ sampleCsv, f.Good sampleParams := by
  intro f hf
  simp only [sampleCsv, List.mem_cons, List.not_mem_nil, or_false] at hf
  rcases hf with rfl | rfl
  · refine ⟨⟨?_, ?_, Or.inr ?_, ?_, ?_, ?_, ?_, ?_, ?_, ?_⟩, ?_⟩
    all_goals try simp [Sheet.rows, Sheet.all, SheetLine.fields?, SheetLine.bytes, Sheet.text, sampleParams, isRow, rowBytes,
      Field.bytes, Field.Ok, Field.NoBreak, Plain, Unambiguous, utf8Bom, escape]
    exact ⟨anySrc_source _ _ _ _ _, ⟨['a', ',', 'b', '\r', '\n', '1', ',', '2', '\r', '\n', '#', 'x', '\r', '\n', '"', '3', '"',
        ',', '4', '\r', '\n'], by decide, by decide⟩,
      by simp, by simp, by simp,
      Or.inr (Or.inl (by simp [Sheet.bytes, Sheet.text, SheetLine.bytes, Text.bytes, Term.bytes, chunkSize, rowBytes, Field.bytes, escape]))⟩
  · refine ⟨⟨?_, ?_, Or.inr ?_, ?_, ?_, ?_, ?_, ?_, ?_, ?_⟩, ?_⟩
    all_goals try simp [Sheet.rows, Sheet.all, SheetLine.fields?, SheetLine.bytes, Sheet.text, sampleParams, isRow, rowBytes,
      Field.bytes, Field.Ok, Field.NoBreak, Plain, Unambiguous, utf8Bom, escape]
    refine ⟨anySrc_source _ _ _ _ _, ⟨by decide, ?_⟩, by simp, by simp, by simp,
      Or.inr (Or.inl (by simp [Sheet.bytes, Sheet.text, SheetLine.bytes, Text.bytes, Term.bytes, chunkSize, rowBytes, Field.bytes, escape]))⟩
    intro name hm
    have := (inferBom_iff _ _).2 hm
    exact absurd this (by simp [inferBom])

/-- The hypotheses of `C67_csv_rows_partial` hold for the sample, with fields cut to one byte, and it has the rows it should;
two of them are bad for columns of digits: one because of its `x`, or because of the cut if that makes a row bad. -/
example : Plainly sampleParams { tok := { maxField := some 1 } } ∧ (∀ f ∈ sampleCsv, f.Good sampleParams) ∧
    datasetRows {} sampleCsv = [[[49], [50]], [[51], [52]], [[53], [54, 120]], [[55], [56, 57]]] ∧
    (datasetRows {} sampleCsv).map (goodRow (some 1) .treatAsBad [digitCol, digitCol]) = [true, true, false, false] ∧
    (datasetRows {} sampleCsv).map (goodRow (some 1) .truncate [digitCol, digitCol]) = [true, true, true, true] ∧
    (datasetRows {} sampleCsv).map (goodRow none .treatAsBad [digitCol, digitCol]) = [true, true, false, false] ∧
    ∃ dec, CsvDecodes { maxField := some 1 } .treatAsBad false .pad [digitCol, digitCol] 0 dec := by
  refine ⟨⟨rfl, rfl, by decide, by decide, by decide, by decide⟩, sampleCsv_good, by decide, by decide, by decide, by decide, ?_⟩
  exact csvDecodes_exists _ _ _ _ _ _ (fun _ => rfl)

/-- **C09**, partial, for files with comments, blank lines, a limit on the length of lines and one on the length of fields, with
and without quoted newlines: the records of the file are its rows, without the comments and the blank lines, each of them gives
the fields as written, cut to the limit, and then comes the end of data.  Through chunks of any size and any short reads.
Missing: lines that start with the byte order mark (`C09_bom_violated`), lines that are not shorter than the limit by more than a
terminator (C11), and files with CR LF that `CrlfSafe` leaves out (`C05_crlf_any_chunk_size_violated`). -/
theorem C09_sheet_roundtrip_partial (p : CsvParams) (o : CsvOpts) (hp : Plainly p o) (s : Sheet) (hg : s.Good p)
    (hcrlf : CrlfSafe p ∨ ¬ [13, 10] <:+: s.bytes p.delimiter p.quote)
    (size : Nat) (hsize : 0 < size) (sched : List Nat) (k : Nat) :
    ∃ rows : List Bytes, rows.length = s.values.length ∧
      (Reader.init size (s.bytes p.delimiter p.quote) sched).readN (csvDecode p) (s.values.length + k) =
        rows.map (fun r => .ok (some ⟨0, r⟩)) ++ List.replicate k (.ok none) ∧
      rows.map (tokenize o.tok) = s.values.map fun vs => (vs.map (cutField o.tok.maxField), .ok ()) := by
  obtain ⟨h1, h2⟩ := sheet_fields hp hg
  have hlen : (rowLines p.delimiter p.quote s).length = s.values.length := by rw [← h1, List.length_map]
  refine ⟨rowLines p.delimiter p.quote s, hlen, ?_, ?_⟩
  · have hl := sheet_linesOk hp hg
    rw [csv_readN p (s.bytes p.delimiter p.quote) size hsize sched _
      ⟨hcrlf.elim (crlfSafe_ok hp _) Or.inl, Or.inl hl.markFree⟩]
    have := csv_lines p _ hl k
    rw [sheet_rowLines hg, hlen] at this
    exact this
  · rw [← h1, List.map_map]
    exact List.map_congr_left fun row hr => h2 row hr

/-- A row, a comment ended by CR and a last row, with lines of fewer than 10 bytes and fields cut to two; read in chunks of three
bytes. -/
example : Sheet.Good { sampleParams with quotedNewLines := true }
      ⟨[(.row [⟨[97, 98, 99], false⟩, ⟨[10], true⟩], .lf), (.other [35, 33], .cr)], .row [⟨[100], false⟩]⟩ ∧
    (Reader.init 3 (Sheet.bytes 44 34 ⟨[(.row [⟨[97, 98, 99], false⟩, ⟨[10], true⟩], .lf), (.other [35, 33], .cr)],
        .row [⟨[100], false⟩]⟩) [1, 2]).readN (csvDecode { sampleParams with quotedNewLines := true }) 3 =
      [.ok (some ⟨0, [97, 98, 99, 44, 34, 10, 34]⟩), .ok (some ⟨0, [100]⟩), .ok none] ∧
    tokenize { maxField := some 2 } [97, 98, 99, 44, 34, 10, 34] = ([([97, 98], true), ([10], false)], .ok ()) := by
  refine ⟨⟨?_, ?_, Or.inl rfl, ?_, ?_, ?_, ?_, ?_, ?_, ?_⟩, by decide +kernel, by decide⟩
  all_goals simp [Sheet.rows, Sheet.all, SheetLine.fields?, SheetLine.bytes, Sheet.text, sampleParams, isRow, rowBytes,
      Field.bytes, Field.Ok, Field.NoBreak, Plain, Unambiguous, utf8Bom, escape]

end Mlio
