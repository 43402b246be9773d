import Verif.Proofs.FailingStores

/-!
# C75: a dataset that cannot be read to its end
-/

namespace Mlio
open Spec

variable {V : Type}

/-- **C75**: whatever the core reader delivers before it fails with an error, in every epoch: for everything, `rest`, that could
have followed, what the reader has delivered is a beginning of the epoch of the whole; it signals the end only if nothing that
could have followed is selected, and then has delivered everything; the errors are that of the core reader, and those of decoding. -/
theorem C75_dataset {α ε : Type} (R : Rng) (hR : R.Lawful) (o : ReadOptions) (core : Machine α) (xs : List α) (e : Err)
    (hc : core.Breaks xs e) (hlen : xs.length < 2 ^ 64 - 1) (b : Nat) (hb : 0 < b) (l : LastHandling) (hl : l ≠ .padWarn)
    (r : Machine α) (hm : makeInstanceReader R o core = some r) (P Q : Nat) (hP : 0 < P)
    (dec : Batch α → Except Err (Option ε)) (s : PState (batched b l r) ε) (hr : Reachable P Q dec s) (rest : List α) :
    ∃ ys, EpochOrder o (selected o (xs ++ rest)) ys ∧
      delivered s.out <+: examples dec (batches b l ys) ∧
      (.ok none ∈ s.out → selected o (xs ++ rest) = selected o xs ∧ delivered s.out = examples dec (batches b l ys)) ∧
      (∀ e', .err e' ∈ s.out → e' = e ∨ ∃ q ∈ batches b l ys, dec q = .error e') ∧
      ∀ w, .ub w ∉ s.out := by
  obtain ⟨ys, h1, h2, h3, h4, h5⟩ := dataset_fails R hR o core xs e hc hlen b hb l hl r hm P Q hP dec s hr rest
  exact ⟨ys, h1, h2, fun hx => ⟨(h3 hx).1, (h3 hx).2.1⟩, h4, h5⟩

/-- The epochs of a text line reader whose core reader breaks. -/
theorem text_fails (R : Rng) (hR : R.Lawful) (o : ReadOptions) (core : Machine Inst) (xss : List (List Bytes))
    (hy : core.Breaks (rowInstances xss) .dataReader) (hlen : xss.flatten.length < 2 ^ 64 - 1)
    (b : Nat) (hb : 0 < b) (l : LastHandling) (hl : l ≠ .padWarn) (P Q : Nat) (hP : 0 < P) (r : Machine Inst)
    (hm : makeInstanceReader R o core = some r) (s : PState (batched b l r) LinesExample) (hr : Reachable P Q textLineDecode s)
    (rest : List Bytes) :
    ∃ lines, EpochOrder o (selected o (xss.flatten ++ rest)) lines ∧
      delivered s.out <+: (batches b l lines).map lineExample ∧
      (.ok none ∈ s.out → delivered s.out = (batches b l lines).map lineExample ∧
        selected o (xss.flatten ++ rest) = selected o xss.flatten) ∧
      (∀ e, .err e ∈ s.out → e = .dataReader) ∧ ∀ w, .ub w ∉ s.out := by
  have hflat : (rowInstances xss).map (fun i => i.bits.getD []) = xss.flatten := rowInstances_bits xss
  have hrest : (rowInstances xss ++ rest.map fun b => (⟨0, 0, some b⟩ : Inst)).map (fun i => i.bits.getD []) =
      xss.flatten ++ rest := by
    rw [List.map_append, hflat, List.map_map]
    congr 1
    exact (List.map_congr_left fun b _ => rfl).trans (List.map_id _)
  have hlen' : (rowInstances xss).length < 2 ^ 64 - 1 := by
    rw [← List.length_map (fun i : Inst => i.bits.getD []), hflat]; exact hlen
  obtain ⟨ys, h1, h2, h3, h4, h5⟩ := dataset_fails R hR o _ _ .dataReader hy hlen' b hb l hl r hm P Q hP
    textLineDecode s hr (rest.map fun b => ⟨0, 0, some b⟩)
  refine ⟨ys.map fun i => i.bits.getD [], ?_, ?_, ?_, ?_, h5⟩
  · rw [← hrest, selected_map]
    exact epochOrder_map _ o _ _ h1
  · rw [← examples_lines b hb]; exact h2
  · rw [← examples_lines b hb]
    refine fun hx => ⟨(h3 hx).2.1, ?_⟩
    rw [← hrest, ← hflat, selected_map, selected_map, (h3 hx).1]
  · intro e he
    rcases h4 e he with h | ⟨q, hq, hd⟩
    · exact h
    · have hfit := batches_fit b hb l ys q hq
      rw [textLineDecode_ok q hfit.1] at hd
      cases hd

/-- **C75**, partial: a text line reader over data stores of which one cannot be opened; those behind it can be anything.  Whatever
lines, `rest`, the unreadable part could have: what is delivered is a beginning of the epoch of the whole dataset, never a
shortened batch; the end is signalled only if none of them is selected; the only error is that of the data reader.

Missing: as for C74. -/
theorem C75_text_partial (z : Inflater) (w : World) (R : Rng) (hR : R.Lawful) (o : ReadOptions) (stores : List TextStore)
    (hg : ∀ t ∈ stores, t.Good z w) (bad : Store) (hbad : CannotOpen w bad) (later : List Store)
    (hlen : (stores.flatMap fun t => t.text.content).length < 2 ^ 64 - 1)
    (b : Nat) (hb : 0 < b) (l : LastHandling) (hl : l ≠ .padWarn) (P Q : Nat) (hP : 0 < P) :
    ∃ fuel0, ∀ fuel, fuel0 ≤ fuel → ∀ r,
      makeInstanceReader R o (textStoreCore unicodeCodec z w fuel (stores.map (fun t => t.store) ++ bad :: later)) = some r →
      ∀ s : PState (batched b l r) LinesExample, Reachable P Q textLineDecode s → ∀ rest : List Bytes,
      ∃ lines, EpochOrder o (selected o (stores.flatMap (fun t => t.text.content) ++ rest)) lines ∧
        delivered s.out <+: (batches b l lines).map lineExample ∧
        (.ok none ∈ s.out → delivered s.out = (batches b l lines).map lineExample ∧
          selected o (stores.flatMap (fun t => t.text.content) ++ rest) = selected o (stores.flatMap fun t => t.text.content)) ∧
        (∀ e, .err e ∈ s.out → e = .dataReader) ∧ ∀ w, .ub w ∉ s.out := by
  obtain ⟨fuel0, xss, hx, hy⟩ := textCore_breaks stores hg bad hbad later
  refine ⟨fuel0, fun fuel hf r hm s hr rest => ?_⟩
  rw [← hx] at hlen ⊢
  exact text_fails R hR o _ xss (hy fuel hf) hlen b hb l hl P Q hP r hm s hr rest

/-- A row of values, all of them in quotes. -/
def quotedRow (p : CsvParams) (row : List Bytes) : Bytes := rowBytes p.delimiter p.quote (row.map fun v => ⟨v, true⟩)

theorem quotedRow_tok {p : CsvParams} {o : CsvOpts} (hp : Plainly p o) (row : List Bytes) (hne : row ≠ []) :
    tokenize o.tok (quotedRow p row) = (row.map (cutField o.tok.maxField), .ok ()) ∧ rowFields o.tok (quotedRow p row) = row := by
  obtain ⟨h1, h2⟩ := tokenize_fields hp (row.map fun v => ⟨v, true⟩) (by simpa using hne) (by
    intro f hf
    obtain ⟨v, _, rfl⟩ := List.mem_map.1 hf
    exact Or.inl rfl)
  have : (row.map fun v => (⟨v, true⟩ : Field)).map Field.value = row := by
    rw [List.map_map]
    exact (List.map_congr_left fun v _ => rfl).trans (List.map_id _)
  rw [this] at h1 h2
  exact ⟨h2, h1⟩

/-- The epochs of a CSV reader whose core reader breaks. -/
theorem csv_fails (R : Rng) (hR : R.Lawful) (o : ReadOptions) (p : CsvParams) (co : CsvOpts) (hp : Plainly p co)
    (core : Machine Inst) (xss : List (List Bytes)) (hy : core.Breaks (rowInstances xss) .dataReader)
    (f2 : ∀ row ∈ xss.flatten, tokenize co.tok row = ((rowFields co.tok row).map (cutField co.tok.maxField), .ok ()))
    (limit : FieldLimit) (warnBad : Bool) (bad : BadHandling) (cols : List (CsvCol V)) (dflt : V)
    (dec : Batch Inst → Except Err (Option (CsvExample V))) (hdec : CsvDecodes co.tok limit warnBad bad cols dflt dec)
    (hlen : xss.flatten.length < 2 ^ 64 - 1)
    (b : Nat) (hb : 0 < b) (l : LastHandling) (hl : l ≠ .padWarn) (P Q : Nat) (hP : 0 < P) (r : Machine Inst)
    (hm : makeInstanceReader R o core = some r) (s : PState (batched b l r) (CsvExample V)) (hr : Reachable P Q dec s)
    (rest : List (List Bytes)) (hne : ∀ row ∈ rest, row ≠ []) :
    ∃ rows, EpochOrder o (selected o (xss.flatten.map (rowFields co.tok) ++ rest)) rows ∧
      (∀ (i : Nat) ex, (delivered s.out)[i]? = some ex →
        ∃ q, (deliverable (goodBatch co.tok.maxField limit cols) bad (batches b l rows))[i]? = some q ∧ HoldsRows co.tok.maxField limit cols q ex) ∧
      (.ok none ∈ s.out →
        (delivered s.out).length = (deliverable (goodBatch co.tok.maxField limit cols) bad (batches b l rows)).length ∧
        (bad = .error → ∀ q ∈ batches b l rows, goodBatch co.tok.maxField limit cols q = true) ∧
        selected o (xss.flatten.map (rowFields co.tok) ++ rest) = selected o (xss.flatten.map (rowFields co.tok))) ∧
      (∀ e, .err e ∈ s.out → e = .dataReader ∨ (e = .invalidInstance ∧ bad = .error ∧
        ∃ q ∈ batches b l rows, goodBatch co.tok.maxField limit cols q = false)) ∧
      ∀ w, .ub w ∉ s.out := by
  have hbits := rowInstances_bits xss
  have hflat : (rowInstances xss).map (fun i => rowFields co.tok (i.bits.getD [])) =
      xss.flatten.map (rowFields co.tok) := by
    rw [← hbits, List.map_map]
    rfl
  have hrest : (rowInstances xss ++ rest.map fun row => (⟨0, 0, some (quotedRow p row)⟩ : Inst)).map
      (fun i => rowFields co.tok (i.bits.getD [])) = xss.flatten.map (rowFields co.tok) ++ rest := by
    rw [List.map_append, hflat, List.map_map]
    congr 1
    exact (List.map_congr_left fun row hrow => (quotedRow_tok hp row (hne row hrow)).2).trans (List.map_id _)
  have hlen' : (rowInstances xss).length < 2 ^ 64 - 1 := by
    rw [← List.length_map (fun i : Inst => rowFields co.tok (i.bits.getD [])), hflat, List.length_map]; exact hlen
  obtain ⟨ys, h1, h2, h3, h4, h5⟩ := dataset_fails R hR o _ _ .dataReader hy hlen' b hb l hl r hm P Q hP dec s hr
    (rest.map fun row => ⟨0, 0, some (quotedRow p row)⟩)
  have hmem : ∀ i ∈ ys, tokenize co.tok (i.bits.getD []) =
        ((rowFields co.tok (i.bits.getD [])).map (cutField co.tok.maxField), .ok ()) := by
    intro i hi
    have hi := selected_mem o _ i (epochOrder_mem o _ _ h1 i hi)
    rcases List.mem_append.1 hi with hi | hi
    · refine f2 _ ?_
      rw [← hbits]
      exact List.mem_map.2 ⟨i, hi, rfl⟩
    · obtain ⟨row, hrow, rfl⟩ := List.mem_map.1 hi
      obtain ⟨g1, g2⟩ := quotedRow_tok hp row (hne row hrow)
      simp only [Option.getD_some]
      rw [g2, g1]
  have hd : ∀ q ∈ batches b l ys, _ := fun q hq =>
    csvDecodes_batch hdec q (batches_fit b hb l ys q hq).1 (fun i hi => hmem i (batches_mem b hb l ys q hq i hi))
  obtain ⟨e1, e2⟩ := examples_deliverable dec (fun q => q.map fun i => rowFields co.tok (i.bits.getD []))
    (goodBatch co.tok.maxField limit cols) bad (HoldsRows co.tok.maxField limit cols) (batches b l ys) hd
  refine ⟨ys.map fun i => rowFields co.tok (i.bits.getD []), ?_, ?_, ?_, ?_, h5⟩
  · rw [← hrest, selected_map]
    exact epochOrder_map _ o _ _ h1
  · intro i ex hi
    obtain ⟨t, ht⟩ := h2
    rw [batches_map]
    exact e2 i ex (by
      rw [← ht, List.getElem?_append_left (List.getElem?_eq_some_iff.1 hi).1]; exact hi)
  · intro hx
    obtain ⟨g0, g1, g2⟩ := h3 hx
    rw [batches_map]
    refine ⟨by rw [g1, e1], ?_, by rw [← hrest, ← hflat, selected_map, selected_map, g0]⟩
    rintro rfl q' hq'
    obtain ⟨q, hq, rfl⟩ := List.mem_map.1 hq'
    cases hgq : goodBatch co.tok.maxField limit cols (q.map fun i => rowFields co.tok (i.bits.getD [])) with
    | true => rfl
    | false =>
      have := hd q hq
      rw [hgq] at this
      obtain ⟨x, hx⟩ := g2 q hq
      rw [hx] at this
      simp at this
  · intro e he
    rcases h4 e he with h | ⟨q, hq, hd'⟩
    · exact Or.inl h
    right
    have := hd q hq
    rw [batches_map]
    split at this
    · obtain ⟨ex, h, _⟩ := this
      rw [hd'] at h
      cases h
    · next hn =>
      simp only [Bool.or_eq_true, not_or, Bool.not_eq_true] at hn
      split at this
      · next hbad =>
        rw [hd'] at this
        cases this
        exact ⟨rfl, hbad, _, List.mem_map.2 ⟨q, hq, rfl⟩, hn.1.1⟩
      · rw [hd'] at this
        cases this

/-- **C75**, partial: the same for a CSV reader, whatever rows, `rest`, the unreadable part could have: a bad row may be an error,
too.  Missing: as for C74. -/
theorem C75_csv_partial (z : Inflater) (w : World) (R : Rng) (hR : R.Lawful) (o : ReadOptions) (p : CsvParams) (co : CsvOpts)
    (hp : Plainly p co) (stores : List CsvStore) (hg : ∀ t ∈ stores, t.Good z w p)
    (hsingle : co.singleHeader = true → ∀ h t, co.headerRow = some h → stores.head? = some t →
      co.columnNames ≠ [] ∨ h < t.table.values.length)
    (broken : Store) (hbad : CannotOpen w broken) (later : List Store)
    (limit : FieldLimit) (warnBad : Bool) (bad : BadHandling) (cols : List (CsvCol V)) (dflt : V)
    (dec : Batch Inst → Except Err (Option (CsvExample V))) (hdec : CsvDecodes co.tok limit warnBad bad cols dflt dec)
    (hlen : (tableRows co (stores.map fun t => t.table)).length < 2 ^ 64 - 1)
    (b : Nat) (hb : 0 < b) (l : LastHandling) (hl : l ≠ .padWarn) (P Q : Nat) (hP : 0 < P) :
    ∃ fuel0, ∀ fuel, fuel0 ≤ fuel → ∀ r,
      makeInstanceReader R o (csvStoreCore unicodeCodec z w p co none fuel (stores.map (fun t => t.store) ++ broken :: later)) = some r →
      ∀ s : PState (batched b l r) (CsvExample V), Reachable P Q dec s → ∀ rest : List (List Bytes), (∀ row ∈ rest, row ≠ []) →
      ∃ rows, EpochOrder o (selected o (tableRows co (stores.map fun t => t.table) ++ rest)) rows ∧
        (∀ (i : Nat) ex, (delivered s.out)[i]? = some ex →
          ∃ q, (deliverable (goodBatch co.tok.maxField limit cols) bad (batches b l rows))[i]? = some q ∧ HoldsRows co.tok.maxField limit cols q ex) ∧
        (.ok none ∈ s.out →
          (delivered s.out).length = (deliverable (goodBatch co.tok.maxField limit cols) bad (batches b l rows)).length ∧
          (bad = .error → ∀ q ∈ batches b l rows, goodBatch co.tok.maxField limit cols q = true) ∧
          selected o (tableRows co (stores.map fun t => t.table) ++ rest) = selected o (tableRows co (stores.map fun t => t.table))) ∧
        (∀ e, .err e ∈ s.out → e = .dataReader ∨ (e = .invalidInstance ∧ bad = .error ∧
          ∃ q ∈ batches b l rows, goodBatch co.tok.maxField limit cols q = false)) ∧
        ∀ w, .ub w ∉ s.out := by
  obtain ⟨fuel0, xss, f1, f2, hy⟩ := csvStoreCore_breaks hp stores hg hsingle broken hbad later
  refine ⟨fuel0, fun fuel hf r hm s hr rest hne => ?_⟩
  rw [← f1] at hlen ⊢
  exact csv_fails R hR o p co hp _ xss (hy fuel hf) f2 limit warnBad bad cols dflt dec hdec (by rwa [List.length_map] at hlen) b hb l hl P Q hP
    r hm s hr rest hne

/-- The epochs of a RecordIO-protobuf reader whose core reader breaks. -/
theorem messages_fail (R : Rng) (hR : R.Lawful) (o : ReadOptions) (core : Machine Inst) (is : List (Nat × Option Bytes))
    (hy : core.Breaks (number [] is) .dataReader)
    (parse : Bytes → Option (PRecord V)) (zero : V) (bad : BadHandling) (s : Schema) (hs : SchemaOk s)
    (dec : Batch Inst → Except Err (Option (ProtoExample V))) (hdec : ProtoDecodes parse zero bad s dec)
    (hlen : is.length < 2 ^ 64 - 1)
    (b : Nat) (hb : 0 < b) (halloc : ∀ a ∈ s.attrs, a.sparse = false → b * numElements a.shape.tail < 2 ^ 64)
    (l : LastHandling) (hl : l ≠ .padWarn) (P Q : Nat) (hP : 0 < P) (r : Machine Inst)
    (hm : makeInstanceReader R o core = some r) (st : PState (batched b l r) (ProtoExample V)) (hr : Reachable P Q dec st)
    (rest : List Bytes) (hnames : ∀ x, some x ∈ messages parse is ++ rest.map parse → NoClash x)
    (hsparse : bad = .pad ∨ bad = .padWarn → ∀ x ∈ messages parse is ++ rest.map parse, IsBad s x → NoSparse s x) :
    ∃ ms, EpochOrder o (selected o (messages parse is ++ rest.map parse)) ms ∧
      (∀ (i : Nat) ex, (delivered st.out)[i]? = some ex →
        ∃ q, (deliverable (goodMessages s) bad (batches b l ms))[i]? = some q ∧ HoldsMessages zero s q ex) ∧
      (.ok none ∈ st.out →
        (delivered st.out).length = (deliverable (goodMessages s) bad (batches b l ms)).length ∧
        (bad = .error → ∀ q ∈ batches b l ms, goodMessages s q = true) ∧
        selected o (messages parse is ++ rest.map parse) = selected o (messages parse is)) ∧
      (∀ e, .err e ∈ st.out → e = .dataReader ∨ (e = .invalidInstance ∧ bad = .error ∧
        ∃ q ∈ batches b l ms, goodMessages s q = false)) ∧
      ∀ w, .ub w ∉ st.out := by
  have hflat : (number [] is).map (fun i => parse (i.bits.getD [])) = messages parse is := by
    have := congrArg (List.map parse) (number_bits is [])
    rw [List.map_map, List.map_map] at this
    exact this
  have hrest : (number [] is ++ rest.map fun x => (⟨0, 0, some x⟩ : Inst)).map (fun i => parse (i.bits.getD [])) =
      messages parse is ++ rest.map parse := by
    rw [List.map_append, hflat, List.map_map]
    rfl
  have hlen' : (number [] is).length < 2 ^ 64 - 1 := by
    rw [← List.length_map (fun i : Inst => parse (i.bits.getD [])), hflat, messages, List.length_map]; exact hlen
  obtain ⟨ys, h1, h2, h3, h4, h5⟩ := dataset_fails R hR o _ _ .dataReader hy hlen' b hb l hl r hm P Q hP dec st hr
    (rest.map fun x => ⟨0, 0, some x⟩)
  have hmem : ∀ i ∈ ys, parse (i.bits.getD []) ∈ messages parse is ++ rest.map parse := by
    intro i hi
    have hi := selected_mem o _ i (epochOrder_mem o _ _ h1 i hi)
    rw [← hrest]
    exact List.mem_map.2 ⟨i, hi, rfl⟩
  have hd : ∀ q ∈ batches b l ys, _ := fun q hq =>
    protoDecodes_batch hs hdec q
      ⟨by rw [List.length_map]; exact (batches_fit b hb l ys q hq).1,
        fun a ha hsp => Nat.lt_of_le_of_lt (Nat.mul_le_mul_right _ (batches_size b hb l ys q hq)) (halloc a ha hsp),
        by
          intro x hx y hy
          obtain ⟨i, hi, rfl⟩ := List.mem_map.1 hx
          exact hnames y (hy ▸ hmem i (batches_mem b hb l ys q hq i hi))⟩
      (fun hp i hi => hsparse hp _ (hmem i (batches_mem b hb l ys q hq i hi)))
  obtain ⟨e1, e2⟩ := examples_deliverable dec (fun q => q.map fun i => parse (i.bits.getD []))
    (goodMessages s) bad (HoldsMessages zero s) (batches b l ys) hd
  refine ⟨ys.map fun i => parse (i.bits.getD []), ?_, ?_, ?_, ?_, h5⟩
  · rw [← hrest, selected_map]
    exact epochOrder_map _ o _ _ h1
  · intro i ex hi
    obtain ⟨t, ht⟩ := h2
    rw [batches_map]
    exact e2 i ex (by
      rw [← ht, List.getElem?_append_left (List.getElem?_eq_some_iff.1 hi).1]; exact hi)
  · intro hx
    obtain ⟨g0, g1, g2⟩ := h3 hx
    rw [batches_map]
    refine ⟨by rw [g1, e1], ?_, by rw [← hrest, ← hflat, selected_map, selected_map, g0]⟩
    rintro rfl q' hq'
    obtain ⟨q, hq, rfl⟩ := List.mem_map.1 hq'
    cases hgq : goodMessages s (q.map fun i => parse (i.bits.getD [])) with
    | true => rfl
    | false =>
      have := hd q hq
      rw [hgq] at this
      obtain ⟨x, hx⟩ := g2 q hq
      rw [hx] at this
      simp at this
  · intro e he
    rcases h4 e he with h | ⟨q, hq, hd'⟩
    · exact Or.inl h
    right
    have := hd q hq
    rw [batches_map]
    split at this
    · obtain ⟨ex, h, _⟩ := this
      rw [hd'] at h
      cases h
    · next hn =>
      simp only [Bool.or_eq_true, not_or, Bool.not_eq_true] at hn
      split at this
      · next hbad =>
        rw [hd'] at this
        cases this
        exact ⟨rfl, hbad, _, List.mem_map.2 ⟨q, hq, rfl⟩, hn.1.1⟩
      · rw [hd'] at this
        cases this

/-- **C75**, partial: the same for a RecordIO-protobuf reader over data stores of which one cannot be opened or is damaged behind
some frames; an instance that was split over frames and whose end is missing is not delivered.  Here `rest` are the bits of the
instances that could have followed.  Missing: as for C74. -/
theorem C75_messages_partial (z : Inflater) (w : World) (R : Rng) (hR : R.Lawful) (o : ReadOptions) (stores : List ProtoStore)
    (hg : ∀ t ∈ stores, t.Good z w) (broken : Store) (frames : List Frame) (hbad : BreaksAfter z w broken frames)
    (later : List Store) (is : List (Nat × Option Bytes))
    (hi : InstancesBefore (stores.map (fun t => t.frames) ++ [frames]) is)
    (parse : Bytes → Option (PRecord V)) (zero : V) (bad : BadHandling) (s : Schema) (hs : SchemaOk s)
    (dec : Batch Inst → Except Err (Option (ProtoExample V))) (hdec : ProtoDecodes parse zero bad s dec)
    (hlen : is.length < 2 ^ 64 - 1)
    (b : Nat) (hb : 0 < b) (halloc : ∀ a ∈ s.attrs, a.sparse = false → b * numElements a.shape.tail < 2 ^ 64)
    (l : LastHandling) (hl : l ≠ .padWarn) (P Q : Nat) (hP : 0 < P) :
    ∃ fuel0, ∀ fuel, fuel0 ≤ fuel → ∀ r,
      makeInstanceReader R o (protoStoreCore z w fuel (stores.map (fun t => t.store) ++ broken :: later)) = some r →
      ∀ st : PState (batched b l r) (ProtoExample V), Reachable P Q dec st → ∀ rest : List Bytes,
      (∀ x, some x ∈ messages parse is ++ rest.map parse → NoClash x) →
      (bad = .pad ∨ bad = .padWarn → ∀ x ∈ messages parse is ++ rest.map parse, IsBad s x → NoSparse s x) →
      ∃ ms, EpochOrder o (selected o (messages parse is ++ rest.map parse)) ms ∧
        (∀ (i : Nat) ex, (delivered st.out)[i]? = some ex →
          ∃ q, (deliverable (goodMessages s) bad (batches b l ms))[i]? = some q ∧ HoldsMessages zero s q ex) ∧
        (.ok none ∈ st.out →
          (delivered st.out).length = (deliverable (goodMessages s) bad (batches b l ms)).length ∧
          (bad = .error → ∀ q ∈ batches b l ms, goodMessages s q = true) ∧
          selected o (messages parse is ++ rest.map parse) = selected o (messages parse is)) ∧
        (∀ e, .err e ∈ st.out → e = .dataReader ∨ (e = .invalidInstance ∧ bad = .error ∧
          ∃ q ∈ batches b l ms, goodMessages s q = false)) ∧
        ∀ w, .ub w ∉ st.out := by
  obtain ⟨fuel0, hy⟩ := protoStoreCore_breaks stores hg broken frames hbad later is hi
  exact ⟨fuel0, fun fuel hf r hm st hr rest hnames hsparse =>
    messages_fail R hR o _ is (hy fuel hf) parse zero bad s hs dec hdec hlen b hb halloc l hl P Q hP r hm st hr rest hnames hsparse⟩

/-! ## Samples -/

/-- A file that does not exist, and a file that is compressed with bzip2: stores that cannot be opened. -/
theorem sample_missing : CannotOpen storeWorld (.file [120] true .none) :=
  Or.inl ⟨fun x ⟨sched, h⟩ => by simp [storeWorld] at h, fun uri v c h => by cases h⟩

theorem sample_bzip2 : CannotOpen storeWorld (.file [97] false .bzip2) :=
  Or.inr ⟨⟨_, _, rfl⟩, Or.inl rfl⟩

/-- An object that does not exist. -/
example : CannotOpen storeWorld (.object [115, 51, 58, 47, 47, 98, 47, 120] [] .none) := by
  refine Or.inl ⟨?_, fun uri v c h => ?_⟩
  · rintro x ⟨b, k, h, hw⟩
    have h1 := ((C52_object_uri [115, 51, 58, 47, 47, 98, 47, 120]).1 b k).2 h
    have h2 := ((C52_object_uri [115, 51, 58, 47, 47, 98, 47, 120]).1 [98] [120]).2 ⟨by decide, by decide, by decide, by decide⟩
    rw [h1] at h2
    cases h2
    simp [storeWorld] at hw
  · cases h
    exact ⟨[98], [120], by decide, by decide, by decide, by decide⟩

/-- A frame that was cut: a store that is damaged behind its first frame. -/
theorem sample_damaged : Damaged toyInflater storeWorld
    (.memory (recordioFile [⟨0, [1, 7, 5], [0]⟩] ++ [0x0A, 0x23, 0xD7, 0xCE, 3, 0, 0, 0, 1]) .none) [⟨0, [1, 7, 5], [0]⟩] := by
  refine ⟨?_, [0x0A, 0x23, 0xD7, 0xCE, 3, 0, 0, 0, 1], by simp, ?_, ⟨_, rfl, by decide, Or.inl ⟨rfl, rfl⟩⟩, by decide⟩
  · intro x hx
    simp only [List.mem_cons, List.not_mem_nil, or_false] at hx
    subst hx
    exact ⟨by decide, by decide, by decide, by decide⟩
  · rintro ⟨f, hv, t, ht⟩
    have h1 := (((C02_recordio_arbitrary [0x0A, 0x23, 0xD7, 0xCE, 3, 0, 0, 0, 1] false).2.1) ⟨f.kind, f.payload⟩ t).2 ⟨f, hv, ht.symm, rfl⟩
    have h2 : recordioDecode [0x0A, 0x23, 0xD7, 0xCE, 3, 0, 0, 0, 1] false =
      .fail .corruptHeader [0x0A, 0x23, 0xD7, 0xCE, 3, 0, 0, 0, 1] := by rfl
    rw [h2] at h1
    cases h1

/-- The instances before the damage: the one that was begun in the second store is not among them. -/
example : BreaksAfter toyInflater storeWorld (.file [120] true .none) [] ∧
    InstancesBefore ((sampleProtoStores.take 1).map (fun t => t.frames) ++ [[]]) [(0, some [1, 7, 5])] ∧
    InstancesBefore (sampleProtoStores.map (fun t => t.frames) ++ [[⟨0, [1, 7, 5], [0]⟩]])
      [(0, some [1, 7, 5]), (1, some [2, 9, 8]), (2, some [1, 7, 5])] :=
  ⟨Or.inl ⟨sample_missing, rfl⟩, ⟨.corruptHeader, _, .complete (.cutFail _ [] rfl)⟩,
    ⟨.corruptHeader, _, .complete (.split [] (.complete (.fail _ rfl)))⟩⟩

/-- The hypotheses of C75 about core readers are met by a text line reader over the sample of C74 and a missing file, with lines
that are selected in front of it. -/
example (later : List Store) : ∃ fuel xss, xss.flatten = [[97, 0xC3, 0xA9], [98], [99], [], [100]] ∧
    (textStoreCore unicodeCodec toyInflater storeWorld fuel
      (sampleTextStores.map (fun t => t.store) ++ .file [120] true .none :: later)).Breaks (rowInstances xss) .dataReader := by
  obtain ⟨fuel, xss, h1, h2⟩ := textCore_breaks sampleTextStores sampleTextStores_good (.file [120] true .none) sample_missing later
  exact ⟨fuel, xss, h1, h2 fuel (Nat.le_refl _)⟩

end Mlio
