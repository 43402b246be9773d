import Verif.Proofs.CsvBatch

/-! # C30 – C32: decoding CSV rows and batches -/

namespace Mlio

open Spec

variable {V : Type}

/-! ## C30 -/

/-- **C30.** A row is accepted if and only if its fields can be told apart and it is well-formed; what was read before
(`t`, the state of the tokenizer) does not matter. -/
theorem C30_accepts_iff (cfg : RowCfg) (cols : List (CsvCol V)) (t : Tok) (row : Bytes) :
    (decodeRow cfg cols t row).out = .ok true ↔
      ∃ fs, tokenize cfg.tok row = (fs, .ok ()) ∧ WellFormed cfg.limit cols fs := by
  show (decodeRow cfg cols t row).sum.out = .ok true ↔ _
  rw [decodeRow_sum, decodeFields_accept]
  constructor
  · rintro ⟨h1, h2⟩
    exact ⟨(tokenize cfg.tok row).1, by rw [← h1], h2⟩
  · rintro ⟨fs, h1, h2⟩
    rw [h1]
    exact ⟨rfl, h2⟩

/-- **C30.** An accepted row writes the value of each used field to its column, and nothing else: the writes are the
values of the used fields, the `k`-th one to the `k`-th tensor. -/
theorem C30_stores (cfg : RowCfg) (cols : List (CsvCol V)) (t : Tok) (row : Bytes)
    (h : (decodeRow cfg cols t row).out = .ok true) :
    (decodeRow cfg cols t row).writes.map Prod.snd = usedValues cols (tokenize cfg.tok row).1 ∧
    (decodeRow cfg cols t row).writes.map Prod.fst = List.range (usedCols cols).length := by
  have h' : (decodeRow cfg cols t row).sum.out = .ok true := h
  rw [decodeRow_sum, decodeFields_accept] at h'
  have hg : RowGood cfg cols row := h'
  obtain ⟨_, hw⟩ := decodeRow_good cfg cols t row hg
  rw [hw]
  constructor
  · rw [List.map_map]
    exact List.zipIdx_map_fst 0 (rowVals cfg.tok cols row)
  · rw [List.map_map, ← usedValues_length cfg.limit cols _ h'.2]
    have := List.zipIdx_map_snd 0 (rowVals cfg.tok cols row)
    rw [List.range_eq_range']
    exact this

/-- **C30**, for text that was written as CSV: the row of the given fields is accepted if and only if there are as many
as columns and the used ones parse. -/
theorem C30_written_row (cfg : RowCfg) (hm : cfg.tok.maxField = none) (hdq : cfg.tok.delimiter ≠ cfg.tok.quote)
    (cols : List (CsvCol V)) (t : Tok) (fs : List Field) (hne : fs ≠ [])
    (hf : ∀ f ∈ fs, f.Ok cfg.tok.delimiter cfg.tok.quote) :
    (decodeRow cfg cols t (rowBytes cfg.tok.delimiter cfg.tok.quote fs)).out = .ok true ↔
      fs.length = cols.length ∧
      ∀ x ∈ cols.zip fs, x.1.ignore = true ∨ (x.1.parse x.2.value).isSome := by
  rw [C30_accepts_iff]
  have ht := tokenize_row cfg.tok hm hdq fs hne hf
  constructor
  · rintro ⟨fs', h1, h2, h3⟩
    rw [ht] at h1
    simp only [Prod.mk.injEq, and_true] at h1
    subst h1
    refine ⟨by simpa using h2, fun x hx => ?_⟩
    have := h3 (x.1, (x.2.value, false)) (by
      rw [List.zip_map_right]
      exact List.mem_map.2 ⟨x, hx, rfl⟩)
    rcases this with h | ⟨h, _⟩
    · exact Or.inl h
    · exact Or.inr h
  · rintro ⟨h2, h3⟩
    refine ⟨_, ht, by simpa using h2, fun x hx => ?_⟩
    rw [List.zip_map_right] at hx
    obtain ⟨y, hy, rfl⟩ := List.mem_map.1 hx
    rcases h3 y hy with h | h
    · exact Or.inl h
    · exact Or.inr ⟨h, fun _ => rfl⟩

/-- **C30.** The number of columns in the message of a bad row is the number of its fields (which is not the number of
columns). -/
theorem C30_reported (cfg : RowCfg) (cols : List (CsvCol V)) (t : Tok) (row : Bytes) (fs : List (Bytes × Bool))
    (ht : tokenize cfg.tok row = (fs, .ok ())) (n : Nat) (h : (decodeRow cfg cols t row).reported = some n) :
    n = fs.length ∧ fs.length ≠ cols.length := by
  have h' : (decodeRow cfg cols t row).sum.reported = some n := h
  rw [decodeRow_sum, ht] at h'
  have := decodeFields_reported cfg cols fs 0 0 n h'
  simpa using this

/-- **C30.** If messages are wanted, a row whose only fault is its number of fields has such a message. -/
theorem C30_reports (cfg : RowCfg) (hw : cfg.warnBad = true ∨ cfg.errorBad = true) (cols : List (CsvCol V)) (t : Tok)
    (row : Bytes) (fs : List (Bytes × Bool)) (ht : tokenize cfg.tok row = (fs, .ok ()))
    (hl : fs.length ≠ cols.length) (hok : ∀ x ∈ cols.zip fs, fieldOk cfg.limit x.1 x.2) :
    (decodeRow cfg cols t row).reported = some fs.length := by
  have : (decodeRow cfg cols t row).sum.reported = some fs.length := by
    rw [decodeRow_sum, ht]
    have := decodeFields_reports cfg (by simpa using hw) cols fs 0 0 hl hok
    simpa using this
  exact this

/-- A parser for examples: a single digit. -/
def digitCol (ignore : Bool := false) : CsvCol Nat where
  ignore := ignore
  parse := fun b => match b with
    | [c] => if 48 ≤ c ∧ c ≤ 57 then some (c.toNat - 48) else none
    | _ => none
  zero := 0

-- `7,xx,"8"` with the second column ignored: accepted; `7,x` and `7,x,8,9` are not, and are counted.
example : (decodeRow {} [digitCol, digitCol true, digitCol] (Tok.init []) [55, 44, 120, 120, 44, 34, 56, 34]).out =
      .ok true ∧
    (decodeRow {} [digitCol, digitCol true, digitCol] (Tok.init []) [55, 44, 120, 120, 44, 34, 56, 34]).writes =
      [(0, 7), (1, 8)] ∧
    (decodeRow { warnBad := true } [digitCol, digitCol true, digitCol] (Tok.init []) [55, 44, 120]).out = .ok false ∧
    (decodeRow { warnBad := true } [digitCol, digitCol true, digitCol] (Tok.init []) [55, 44, 120]).reported =
      some 2 ∧
    (decodeRow { warnBad := true } [digitCol, digitCol true, digitCol] (Tok.init [])
      [55, 44, 120, 44, 56, 44, 57]).reported = some 4 := by decide

/-! ## C31 -/

theorem decodeBatch_good (tok : TokParams) (limit : FieldLimit) (warnBad : Bool) (h : BadHandling)
    (cols : List (CsvCol V)) (dflt : V) (size : Nat) (rows : List Bytes) (hlen : rows.length ≤ size)
    (hg : ∀ row ∈ rows, RowGood (RowCfg.of tok limit warnBad h) cols row)
    (o : Res (Option (CsvExample V))) (ho : DecodeBatch tok limit warnBad h cols dflt size rows o) :
    ∃ ts, o = .ok (some ⟨ts, size - rows.length⟩) ∧ ts.cols = (usedCols cols).length ∧ ts.rows = size ∧
      (∀ k (j : Nat) row v, rows[j]? = some row → (rowVals tok cols row)[k]? = some v → ts.cell k j = v) ∧
      (∀ k r c, rows.length ≤ r → (usedCols cols)[k]? = some c → ts.cell k r = c.zero) := by
  have hzero : ∀ k r c, (usedCols cols)[k]? = some c → (makeTensors cols dflt size).cell k r = c.zero := by
    intro k r c hc
    show (((usedCols cols)[k]?).map CsvCol.zero).getD dflt = _
    rw [hc]; rfl
  unfold DecodeBatch at ho
  split at ho
  · have hgr : goodRows (RowCfg.of tok limit warnBad h) cols rows = rows := by
      unfold goodRows
      rw [List.filter_eq_self]
      intro a ha
      simpa using hg a ha
    obtain ⟨ts', h1, h2, h3, h4, h5, h6, h7⟩ := decodeSer_spec (RowCfg.of tok limit warnBad h) h cols rows
      (Tok.init []) 0 (makeTensors cols dflt size) (fun r hr => (hg r hr).1)
      (fun ⟨r, hr, hn⟩ => absurd (hg r hr) hn) (by simpa [makeTensors] using hlen) rfl
    rw [hgr] at h1 h5 h6 h7
    simp only [Nat.zero_add] at h1 h5 h6 h7
    refine ⟨ts', by rw [ho, h1]; rfl, h2, h3, h5, fun k r c hr hc => ?_⟩
    rcases Nat.lt_or_ge rows.length r with hlt | hge
    · rw [h6 k r hlt]; exact hzero k r c hc
    · rw [show r = rows.length by omega, h7 (fun row hrow => hg row (List.mem_of_getLast? hrow)) k]
      exact hzero k _ c hc
  · obtain ⟨r, hr, rfl⟩ := ho
    obtain ⟨ts', h1, h2, h3, h4, h5⟩ := decodePrl_good (RowCfg.of tok limit warnBad h) h cols _ rows
      (makeTensors cols dflt size) hlen rfl hg r hr
    refine ⟨ts', by rw [h1]; rfl, h2, h3, h4, fun k r c hr hc => ?_⟩
    rw [h5 k r hr]; exact hzero k r c hc

/-- **C31**, batches without bad rows.  However the batch is decoded (serially, or in parallel with any division of the
rows and any interleaving of the threads), the result is an example whose tensors hold row `j` at position `j`
and zero behind the last row, and whose padding is the batch size minus the number of rows. -/
theorem C31_good_batch (tok : TokParams) (limit : FieldLimit) (warnBad : Bool) (h : BadHandling)
    (cols : List (CsvCol V)) (dflt : V) (size : Nat) (rows : List Bytes) (hlen : rows.length ≤ size)
    (hg : ∀ row ∈ rows, ∃ fs, tokenize tok row = (fs, .ok ()) ∧ WellFormed limit cols fs)
    (o : Res (Option (CsvExample V))) (ho : DecodeBatch tok limit warnBad h cols dflt size rows o) :
    ∃ ex, o = .ok (some ex) ∧ ex.padding = size - rows.length ∧
      (∀ k (j : Nat) row v, rows[j]? = some row → (usedValues cols (tokenize tok row).1)[k]? = some v →
        ex.tensors.cell k j = v) ∧
      (∀ k r c, rows.length ≤ r → (cols.filter (fun c => !c.ignore))[k]? = some c →
        ex.tensors.cell k r = c.zero) := by
  have hg' : ∀ row ∈ rows, RowGood (RowCfg.of tok limit warnBad h) cols row := by
    intro row hr
    obtain ⟨fs, h1, h2⟩ := hg row hr
    have h1' : tokenize (RowCfg.of tok limit warnBad h).tok row = (fs, .ok ()) := h1
    exact ⟨by rw [TokOk, h1'], by rw [h1']; exact h2⟩
  obtain ⟨ts, h1, _, _, h4, h5⟩ := decodeBatch_good tok limit warnBad h cols dflt size rows hlen hg' o ho
  exact ⟨_, h1, rfl, h4, h5⟩

/-- **C31.** Serial and parallel decoding agree: of a batch without bad rows, any two outcomes, from two runs with
different handling of bad rows (which also decides whether the batch may be decoded in parallel), have the
same values at every position of every tensor. -/
theorem C31_serial_parallel_agree (tok : TokParams) (limit : FieldLimit) (warnBad : Bool) (h h' : BadHandling)
    (cols : List (CsvCol V)) (dflt : V) (size : Nat) (rows : List Bytes) (hlen : rows.length ≤ size)
    (hg : ∀ row ∈ rows, ∃ fs, tokenize tok row = (fs, .ok ()) ∧ WellFormed limit cols fs)
    (o o' : Res (Option (CsvExample V))) (ho : DecodeBatch tok limit warnBad h cols dflt size rows o)
    (ho' : DecodeBatch tok limit warnBad h' cols dflt size rows o') :
    ∃ ex ex', o = .ok (some ex) ∧ o' = .ok (some ex') ∧ ex.padding = ex'.padding ∧
      ∀ k r, k < (cols.filter (fun c => !c.ignore)).length → ex.tensors.cell k r = ex'.tensors.cell k r := by
  obtain ⟨ex, h1, h2, h3, h4⟩ := C31_good_batch tok limit warnBad h cols dflt size rows hlen hg o ho
  obtain ⟨ex', h1', h2', h3', h4'⟩ := C31_good_batch tok limit warnBad h' cols dflt size rows hlen hg o' ho'
  refine ⟨ex, ex', h1, h1', by rw [h2, h2'], fun k r hk => ?_⟩
  rcases Nat.lt_or_ge r rows.length with hr | hr
  · obtain ⟨fs, hf1, hf2⟩ := hg rows[r] (List.getElem_mem hr)
    have hlen2 := usedValues_length limit cols fs hf2
    have hk' : k < (usedValues cols (tokenize tok rows[r]).1).length := by rw [hf1, hlen2]; exact hk
    rw [h3 k r rows[r] _ (List.getElem?_eq_getElem hr) (List.getElem?_eq_getElem hk'),
      h3' k r rows[r] _ (List.getElem?_eq_getElem hr) (List.getElem?_eq_getElem hk')]
  · rw [h4 k r _ hr (List.getElem?_eq_getElem hk), h4' k r _ hr (List.getElem?_eq_getElem hk)]

/-- Decoding a batch always has an outcome, and never writes outside of the tensors (whatever the rows are). -/
theorem C31_outcome (tok : TokParams) (limit : FieldLimit) (warnBad : Bool) (h : BadHandling)
    (cols : List (CsvCol V)) (dflt : V) (size : Nat) (rows : List Bytes) (hlen : rows.length ≤ size) :
    (∃ o, DecodeBatch tok limit warnBad h cols dflt size rows o) ∧
    ∀ o, DecodeBatch tok limit warnBad h cols dflt size rows o → o.NoUB := by
  have key : ∀ (x : Res (Option Nat × Tensors V)), (∀ w, x ≠ .ub w) → (makeExample size x).NoUB := by
    intro x hx
    rcases x with ⟨⟨⟩ | n, ts⟩ | e | w
    · trivial
    · trivial
    · trivial
    · exact absurd rfl (hx w)
  unfold DecodeBatch
  split
  · refine ⟨⟨_, rfl⟩, ?_⟩
    rintro o rfl
    exact key _ (decodeSer_no_ub _ h cols rows _ 0 _ (by simpa [makeTensors] using hlen) rfl)
  · obtain ⟨r, hr⟩ := decodePrl_exists (RowCfg.of tok limit warnBad h) h cols (Tok.init []) rows
      (makeTensors cols dflt size) hlen rfl
    refine ⟨⟨_, r, hr, rfl⟩, ?_⟩
    rintro o ⟨r', hr', rfl⟩
    exact key _ (fun w hw => decodePrl_no_ub _ h cols _ rows _ hlen rfl w (hw ▸ hr'))

/-- **C31**, batches with bad rows (which are kept out in `pad` mode), partial.  The good rows are at positions 0, 1, …
in order, the padding is the batch size minus the number of good rows, and the padding holds zero values except
perhaps at its first position, which does so too if the last row is good.  Missing: the first position of the padding
(`C31_padding_violated`). -/
theorem C31_padded_batch_partial (tok : TokParams) (limit : FieldLimit) (warnBad : Bool) (h : BadHandling)
    (hh : h = .pad ∨ h = .padWarn)
    (cols : List (CsvCol V)) (dflt : V) (size : Nat) (rows : List Bytes) (hlen : rows.length ≤ size)
    (ht : ∀ row ∈ rows, (tokenize tok row).2 = .ok ())
    (good : List Bytes)
    (hgood : good = rows.filter fun row => decide (WellFormed limit cols (tokenize tok row).1))
    (o : Res (Option (CsvExample V))) (ho : DecodeBatch tok limit warnBad h cols dflt size rows o) :
    ∃ ex, o = .ok (some ex) ∧ ex.padding = size - good.length ∧
      (∀ k (j : Nat) row v, good[j]? = some row → (usedValues cols (tokenize tok row).1)[k]? = some v →
        ex.tensors.cell k j = v) ∧
      (∀ k r c, good.length < r → (cols.filter (fun c => !c.ignore))[k]? = some c →
        ex.tensors.cell k r = c.zero) ∧
      ((∀ row, rows.getLast? = some row → row ∈ good) →
        ∀ k c, (cols.filter (fun c => !c.ignore))[k]? = some c → ex.tensors.cell k good.length = c.zero) := by
  have hser : runSerial h cols.length rows.length = true := by rcases hh with rfl | rfl <;> rfl
  have herr : (RowCfg.of tok limit warnBad h).errorBad = false := by rcases hh with rfl | rfl <;> rfl
  unfold DecodeBatch at ho
  rw [if_pos hser] at ho
  have hgr : goodRows (RowCfg.of tok limit warnBad h) cols rows = good := by
    rw [hgood]
    unfold goodRows
    apply List.filter_congr
    intro row hr
    have : RowGood (RowCfg.of tok limit warnBad h) cols row ↔ WellFormed limit cols (tokenize tok row).1 :=
      ⟨fun h => h.2, fun h => ⟨ht row hr, h⟩⟩
    exact decide_eq_decide.2 this
  obtain ⟨ts', h1, h2, h3, h4, h5, h6, h7⟩ := decodeSer_spec (RowCfg.of tok limit warnBad h) h cols rows
      (Tok.init []) 0 (makeTensors cols dflt size) ht (fun _ => ⟨herr, hh⟩) (by simpa [makeTensors] using hlen) rfl
  rw [hgr] at h1 h5 h6 h7
  simp only [Nat.zero_add] at h1 h5 h6 h7
  have hzero : ∀ k r c, (cols.filter (fun c => !c.ignore))[k]? = some c →
      (makeTensors cols dflt size).cell k r = c.zero := by
    intro k r c hc
    show (((cols.filter (fun c => !c.ignore))[k]?).map CsvCol.zero).getD dflt = _
    rw [hc]; rfl
  refine ⟨⟨ts', size - good.length⟩, by rw [ho, h1]; rfl, rfl, h5, fun k r c hr hc => ?_, fun hl k c hc => ?_⟩
  · show ts'.cell k r = _
    rw [h6 k r hr]; exact hzero k r c hc
  · show ts'.cell k good.length = _
    rw [h7 ?_ k]
    · exact hzero k _ c hc
    · intro row hrow
      have := hl row hrow
      rw [← hgr] at this
      have h' := (List.mem_filter.1 this).2
      exact of_decide_eq_true h'

/-- Two digit columns, a batch of size 3, rows `1,2`, `3`, `4,5`. -/
example : ∃ ex, DecodeBatch {} .treatAsBad false .pad [digitCol, digitCol] 9 3
      [[49, 44, 50], [51], [52, 44, 53]] (.ok (some ex)) ∧ ex.padding = 1 ∧
    ex.tensors.cell 0 0 = 1 ∧ ex.tensors.cell 1 0 = 2 ∧ ex.tensors.cell 0 1 = 4 ∧ ex.tensors.cell 1 1 = 5 ∧
    ex.tensors.cell 0 2 = 0 ∧ ex.tensors.cell 1 2 = 0 :=
  ⟨_, rfl, by decide⟩

-- The parallel case exists: 5000000 rows `1,2` in two columns are not decoded serially.
example : runSerial .skip 2 5000000 = false ∧ runSerial .pad 2 5000000 = true := by decide

-- Two threads on two rows, and a possible interleaving of their writes.
example : Interleaved
    ([[(0, [49, 44, 50])], [(1, [52, 44, 53])]].map fun b =>
      (taskRun {} .skip [digitCol, digitCol] b (Tok.init [])).1)
    [(1, 0, 4), (0, 0, 1), (1, 1, 5), (0, 1, 2)] :=
  .step [[(0, 0, 1), (0, 1, 2)]] [] (1, 0, 4) [(1, 1, 5)] _ <|
  .step [] [[(1, 1, 5)]] (0, 0, 1) [(0, 1, 2)] _ <|
  .step [[(0, 1, 2)]] [] (1, 1, 5) [] _ <|
  .step [] [[]] (0, 1, 2) [] _ <| .nil _ (by simp)

/-- **C31 is violated**: the padding keeps a value of a bad row.  Rows `1,2` and `3,x`: the padding is 1, and its
position of the first tensor holds 3. -/
theorem C31_padding_violated :
    ∃ ex, DecodeBatch {} .treatAsBad false .pad [digitCol, digitCol] 9 2
      [[49, 44, 50], [51, 44, 120]] (.ok (some ex)) ∧ ex.padding = 1 ∧
    ex.tensors.cell 0 1 = 3 ∧ ex.tensors.cell 1 1 = 0 :=
  ⟨_, rfl, by decide⟩

/-! ## C32 -/

/-- **C32**, partial.  If a batch has a bad row, but the fields of every row can be told apart: `error` raises, `skip`
drops the example, `pad` drops just the bad rows; serially as well as in parallel.  Missing: rows with an open quote,
for which the claim is false (`C32_open_quote_violated`). -/
theorem C32_bad_rows_partial (tok : TokParams) (limit : FieldLimit) (warnBad : Bool) (h : BadHandling)
    (cols : List (CsvCol V)) (dflt : V) (size : Nat) (rows : List Bytes) (hlen : rows.length ≤ size)
    (ht : ∀ row ∈ rows, (tokenize tok row).2 = .ok ())
    (hbad : ∃ row ∈ rows, ¬ WellFormed limit cols (tokenize tok row).1)
    (o : Res (Option (CsvExample V))) (ho : DecodeBatch tok limit warnBad h cols dflt size rows o) :
    match h with
    | .error => o = .err .invalidInstance
    | .skip | .skipWarn => o = .ok none
    | .pad | .padWarn => ∃ ex, o = .ok (some ex) ∧
        ex.padding = size - (rows.filter fun row => decide (WellFormed limit cols (tokenize tok row).1)).length := by
  have hbad' : ∃ row ∈ rows, ¬ RowGood (RowCfg.of tok limit warnBad h) cols row := by
    obtain ⟨row, hr, hn⟩ := hbad
    exact ⟨row, hr, fun hg => hn hg.2⟩
  have key : ((RowCfg.of tok limit warnBad h).errorBad = false ∧ (h = .skip ∨ h = .skipWarn)) ∨
      ((RowCfg.of tok limit warnBad h).errorBad = true ∧ h = .error) →
      (o = .ok none ∧ (h = .skip ∨ h = .skipWarn) ∨ o = .err .invalidInstance ∧ h = .error) := by
    intro hmode
    unfold DecodeBatch at ho
    split at ho
    · rcases decodeSer_stops (RowCfg.of tok limit warnBad h) h cols hmode rows (Tok.init []) 0
        (makeTensors cols dflt size) ht hbad' (by simpa [makeTensors] using hlen) rfl with ⟨⟨ts, h1⟩, h2⟩ | ⟨h1, h2⟩
      · exact Or.inl ⟨by rw [ho, h1]; rfl, h2⟩
      · exact Or.inr ⟨by rw [ho, h1]; rfl, h2⟩
    · obtain ⟨r, hr, rfl⟩ := ho
      rcases decodePrl_bad (RowCfg.of tok limit warnBad h) h cols hmode _ rows
        (makeTensors cols dflt size) hlen rfl ht hbad' r hr with ⟨⟨ts, h1⟩, h2⟩ | ⟨h1, h2⟩
      · exact Or.inl ⟨by rw [h1]; rfl, h2⟩
      · exact Or.inr ⟨by rw [h1]; rfl, h2⟩
  have hpad : h = .pad ∨ h = .padWarn → ∃ ex, o = .ok (some ex) ∧
      ex.padding = size - (rows.filter fun row => decide (WellFormed limit cols (tokenize tok row).1)).length := by
    intro hh
    obtain ⟨ex, h1, h2, _⟩ := C31_padded_batch_partial tok limit warnBad h hh cols dflt size rows hlen ht _ rfl o ho
    exact ⟨ex, h1, h2⟩
  cases h with
  | error => simpa using key (Or.inr ⟨rfl, rfl⟩)
  | skip => simpa using key (Or.inl ⟨rfl, Or.inl rfl⟩)
  | skipWarn => simpa using key (Or.inl ⟨rfl, Or.inr rfl⟩)
  | pad => exact hpad (Or.inl rfl)
  | padWarn => exact hpad (Or.inr rfl)

-- Rows `1,2` and `3`, in the three modes.
example : DecodeBatch {} .treatAsBad false .error [digitCol, digitCol] 9 2 [[49, 44, 50], [51]]
      (.err .invalidInstance) ∧
    DecodeBatch {} .treatAsBad false .skip [digitCol, digitCol] 9 2 [[49, 44, 50], [51]] (.ok none) ∧
    (∃ ex, DecodeBatch {} .treatAsBad false .pad [digitCol, digitCol] 9 2 [[49, 44, 50], [51]] (.ok (some ex)) ∧
      ex.padding = 1) := by
  refine ⟨rfl, rfl, _, rfl, rfl⟩

/-- **C32 is violated** by rows with an open quote: `"1` raises `Corrupt_record_error` whatever was asked for. -/
theorem C32_open_quote_violated (h : BadHandling) :
    DecodeBatch {} .treatAsBad false h [digitCol] 9 1 [[34, 49]] (.err .corruptRecord) := by
  cases h <;> rfl

/-- **C32 is violated** by asking for warnings: the row `1,2,"3` in a table of one column only makes its example be
skipped, unless `warn_bad_instances` is set, when it raises an error. -/
theorem C32_warning_violated :
    DecodeBatch {} .treatAsBad false .skip [digitCol] 9 1 [[49, 44, 50, 44, 34, 51]] (.ok none) ∧
    DecodeBatch {} .treatAsBad true .skip [digitCol] 9 1 [[49, 44, 50, 44, 34, 51]] (.err .corruptRecord) :=
  ⟨rfl, rfl⟩

end Mlio
