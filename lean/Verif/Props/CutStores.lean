import Verif.Proofs.CutStores
import Verif.Props.FailingStores

/-!
# C75, continued: a compressed dataset that was cut
-/

namespace Mlio
open Spec

variable {V : Type}

/-- **C75**, partial: a text line reader over data stores of which one, `t`, is a gzip file that was cut or damaged, in front of
that place with a part of the text; the stores behind it can be anything.  Some lines of it are read: all of those in the stores
before, and a beginning of its own lines, each of them whole.  Whatever lines, `rest`, could have followed: what is delivered is a
beginning of the epoch of the whole, never a shortened batch; the end is signalled only if none of them is selected; the only error
is that of the data reader.

Missing: as for C74, and files in which what is left of a member or of a block when the file ends there does not stand for anything:
see `C75_truncated_violated`. -/
theorem C75_text_cut_partial (z : Inflater) (w : World) (R : Rng) (hR : R.Lawful) (o : ReadOptions) (stores : List TextStore)
    (hg : ∀ t ∈ stores, t.Good z w) (t : TextStore) (ht : t.Cut z w) (later : List Store)
    (hlen : ((stores ++ [t]).flatMap fun t => t.text.content).length < 2 ^ 64 - 1)
    (b : Nat) (hb : 0 < b) (l : LastHandling) (hl : l ≠ .padWarn) (P Q : Nat) (hP : 0 < P) :
    ∃ fuel0, ∀ fuel, fuel0 ≤ fuel → ∃ k, (stores.flatMap fun t => t.text.content).length ≤ k ∧ ∀ r,
      makeInstanceReader R o (textStoreCore unicodeCodec z w fuel ((stores ++ [t]).map (fun t => t.store) ++ later)) = some r →
      ∀ s : PState (batched b l r) LinesExample, Reachable P Q textLineDecode s → ∀ rest : List Bytes,
      ∃ lines, EpochOrder o (selected o (((stores ++ [t]).flatMap fun t => t.text.content).take k ++ rest)) lines ∧
        delivered s.out <+: (batches b l lines).map lineExample ∧
        (.ok none ∈ s.out → delivered s.out = (batches b l lines).map lineExample ∧
          selected o (((stores ++ [t]).flatMap fun t => t.text.content).take k ++ rest) =
            selected o (((stores ++ [t]).flatMap fun t => t.text.content).take k)) ∧
        (∀ e, .err e ∈ s.out → e = .dataReader) ∧ ∀ w, .ub w ∉ s.out := by
  obtain ⟨fuel0, h⟩ := textCore_cut stores hg t ht later
  refine ⟨fuel0, fun fuel hf => ?_⟩
  obtain ⟨k, xss, hk, hx, hy⟩ := h fuel hf
  refine ⟨k, hk, fun r hm s hr rest => ?_⟩
  have hl' : xss.flatten.length < 2 ^ 64 - 1 := by rw [hx, List.length_take]; omega
  rw [← hx]
  exact text_fails R hR o _ xss hy hl' b hb l hl P Q hP r hm s hr rest

/-- **C75**, partial: the same for a CSV reader.  Missing: as for `C75_text_cut_partial`. -/
theorem C75_csv_cut_partial (z : Inflater) (w : World) (R : Rng) (hR : R.Lawful) (o : ReadOptions) (p : CsvParams) (co : CsvOpts)
    (hp : Plainly p co) (stores : List CsvStore) (hg : ∀ t ∈ stores, t.Good z w p)
    (hsingle : co.singleHeader = true → ∀ h t, co.headerRow = some h → stores.head? = some t →
      co.columnNames ≠ [] ∨ h < t.table.values.length)
    (t : CsvStore) (ht : t.Cut z w p) (later : List Store)
    (limit : FieldLimit) (warnBad : Bool) (bad : BadHandling) (cols : List (CsvCol V)) (dflt : V)
    (dec : Batch Inst → Except Err (Option (CsvExample V))) (hdec : CsvDecodes co.tok limit warnBad bad cols dflt dec)
    (hlen : (tableRows co ((stores ++ [t]).map fun t => t.table)).length < 2 ^ 64 - 1)
    (b : Nat) (hb : 0 < b) (l : LastHandling) (hl : l ≠ .padWarn) (P Q : Nat) (hP : 0 < P) :
    ∃ fuel0, ∀ fuel, fuel0 ≤ fuel → ∃ k, (tableRows co (stores.map fun t => t.table)).length ≤ k ∧ ∀ r,
      makeInstanceReader R o
        (csvStoreCore unicodeCodec z w p co none fuel ((stores ++ [t]).map (fun t => t.store) ++ later)) = some r →
      ∀ s : PState (batched b l r) (CsvExample V), Reachable P Q dec s → ∀ rest : List (List Bytes), (∀ row ∈ rest, row ≠ []) →
      ∃ rows, EpochOrder o (selected o ((tableRows co ((stores ++ [t]).map fun t => t.table)).take k ++ rest)) rows ∧
        (∀ (i : Nat) ex, (delivered s.out)[i]? = some ex →
          ∃ q, (deliverable (goodBatch co.tok.maxField limit cols) bad (batches b l rows))[i]? = some q ∧ HoldsRows co.tok.maxField limit cols q ex) ∧
        (.ok none ∈ s.out →
          (delivered s.out).length = (deliverable (goodBatch co.tok.maxField limit cols) bad (batches b l rows)).length ∧
          (bad = .error → ∀ q ∈ batches b l rows, goodBatch co.tok.maxField limit cols q = true) ∧
          selected o ((tableRows co ((stores ++ [t]).map fun t => t.table)).take k ++ rest) =
            selected o ((tableRows co ((stores ++ [t]).map fun t => t.table)).take k)) ∧
        (∀ e, .err e ∈ s.out → e = .dataReader ∨ (e = .invalidInstance ∧ bad = .error ∧
          ∃ q ∈ batches b l rows, goodBatch co.tok.maxField limit cols q = false)) ∧
        ∀ w, .ub w ∉ s.out := by
  obtain ⟨fuel0, h⟩ := csvCore_cut hp stores hg t ht hsingle later
  refine ⟨fuel0, fun fuel hf => ?_⟩
  obtain ⟨k, xss, hk, hx, f2, hy⟩ := h fuel hf
  refine ⟨k, hk, fun r hm s hr rest hne => ?_⟩
  have hl' : xss.flatten.length < 2 ^ 64 - 1 := by
    have := congrArg List.length hx
    rw [List.length_map, List.length_take] at this
    omega
  rw [← hx]
  exact csv_fails R hR o p co hp _ xss hy f2 limit warnBad bad cols dflt dec hdec hl' b hb l hl P Q hP r hm s hr rest hne

/-- **C75**, partial: the same for a RecordIO-protobuf reader: of the store that was cut a number `k` of frames is read, and the
instances are those that can be put together from these and the frames of the stores before.  Missing: as for
`C75_text_cut_partial`. -/
theorem C75_messages_cut_partial (z : Inflater) (w : World) (R : Rng) (hR : R.Lawful) (o : ReadOptions) (stores : List ProtoStore)
    (hg : ∀ t ∈ stores, t.Good z w) (t : ProtoStore) (ht : t.Cut z w) (later : List Store)
    (parse : Bytes → Option (PRecord V)) (zero : V) (bad : BadHandling) (s : Schema) (hs : SchemaOk s)
    (dec : Batch Inst → Except Err (Option (ProtoExample V))) (hdec : ProtoDecodes parse zero bad s dec)
    (b : Nat) (hb : 0 < b) (halloc : ∀ a ∈ s.attrs, a.sparse = false → b * numElements a.shape.tail < 2 ^ 64)
    (l : LastHandling) (hl : l ≠ .padWarn) (P Q : Nat) (hP : 0 < P) :
    ∃ fuel0, ∀ fuel, fuel0 ≤ fuel → ∃ k, k ≤ t.frames.length ∧ ∀ is,
      InstancesBefore (stores.map (fun t => t.frames) ++ [t.frames.take k]) is → is.length < 2 ^ 64 - 1 → ∀ r,
      makeInstanceReader R o (protoStoreCore z w fuel (stores.map (fun t => t.store) ++ t.store :: later)) = some r →
      ∀ st : PState (batched b l r) (ProtoExample V), Reachable P Q dec st → ∀ rest : List Bytes,
      (∀ x, some x ∈ messages parse is ++ rest.map parse → NoClash x) →
      (bad = .pad ∨ bad = .padWarn → ∀ x ∈ messages parse is ++ rest.map parse, IsBad s x → NoSparse s x) →
      ∃ ms, EpochOrder o (selected o (messages parse is ++ rest.map parse)) ms ∧
        (∀ (i : Nat) ex, (delivered st.out)[i]? = some ex →
          ∃ q, (deliverable (goodMessages s) bad (batches b l ms))[i]? = some q ∧ HoldsMessages zero s q ex) ∧
        (.ok none ∈ st.out →
          (delivered st.out).length = (deliverable (goodMessages s) bad (batches b l ms)).length ∧
          (bad = .error → ∀ q ∈ batches b l ms, goodMessages s q = true) ∧
          selected o (messages parse is ++ rest.map parse) = selected o (messages parse is)) ∧
        (∀ e, .err e ∈ st.out → e = .dataReader ∨ (e = .invalidInstance ∧ bad = .error ∧
          ∃ q ∈ batches b l ms, goodMessages s q = false)) ∧
        ∀ w, .ub w ∉ st.out := by
  obtain ⟨fuel0, h⟩ := protoCore_cut stores hg t ht later
  refine ⟨fuel0, fun fuel hf => ?_⟩
  obtain ⟨k, hk, hy⟩ := h fuel hf
  exact ⟨k, hk, fun is hi hlen r hm st hr rest hnames hsparse =>
    messages_fail R hR o _ is (hy is hi) parse zero bad s hs dec hdec hlen b hb halloc l hl P Q hP r hm st hr rest hnames hsparse⟩

/-! ## Samples -/

/-- A gzip file in memory that was cut. -/
theorem toy_cut {w : World} {all x : Bytes} (h0 : all ≠ []) (hlen : all.length ≤ 0x80000)
    (hx : unzip toyInflater toyInflater.init all = x)
    (hend : ((after toyInflater toyInflater.init true all).map (·.2)) ≠ some true)
    (hc : checkSpoken toyInflater all = true) : CutGzip toyInflater w (.memory all .gzip) x := by
  refine ⟨all, rfl, by omega, rfl, ?_, hx.symm, ?_⟩
  · rintro ⟨ms, c, h⟩
    obtain ⟨⟨s', h1⟩, _⟩ := gzFile_after h
    rw [h1] at hend
    simp at hend
  · intro s blocks hs hd
    cases hs
    rw [delivers_fun hd (memory_block h0 hlen)]
    exact outspoken_of_check hc

/-- The lines `c` and `de`, of which only `c`, the line break and `d` were written. -/
def sampleCutText : TextStore := ⟨⟨[([99], .lf)], [100, 101]⟩, .utf8, .memory [31, 1, 99, 1, 10, 1, 100] .gzip⟩

theorem sampleCutText_cut (w : World) : sampleCutText.Cut toyInflater w := by
  refine ⟨⟨by simp [sampleCutText, Plain], by simp [sampleCutText, Plain], by simp [sampleCutText, Unambiguous]⟩,
    by simp [sampleCutText, Text.content, utf8Bom], ?_, by decide, by simp [sampleCutText], Or.inr (Or.inr (by decide))⟩
  refine ⟨[99, 10, 100], [99, 10, 100, 101], toy_cut (by decide) (by decide) rfl (by decide) (by decide), by decide, ?_,
    fun h => absurd rfl h⟩
  refine ⟨by decide, fun name hm => ?_⟩
  have := (inferBom_iff _ _).2 hm
  cases this

/-- The header `a,b` and the rows `1,2` and `3,4`, cut in the second one. -/
def sampleCutCsv : CsvStore :=
  ⟨⟨[(.row [⟨[97], false⟩, ⟨[98], false⟩], .lf), (.row [⟨[49], false⟩, ⟨[50], false⟩], .lf)], .row [⟨[51], false⟩, ⟨[52], false⟩]⟩, .utf8,
    .memory [31, 1, 97, 1, 44, 1, 98, 1, 10, 1, 49, 1, 44, 1, 50, 1, 10, 1, 51] .gzip⟩

theorem sampleCutCsv_cut (w : World) : sampleCutCsv.Cut toyInflater w sampleParams := by
  refine ⟨⟨?_, ?_, Or.inr ?_, ?_, ?_, ?_, ?_, ?_, ?_, ?_⟩, ?_⟩
  all_goals try simp [sampleCutCsv, Sheet.rows, Sheet.all, SheetLine.fields?, SheetLine.bytes, Sheet.text, sampleParams, isRow, rowBytes,
      Field.bytes, Field.Ok, Field.NoBreak, Plain, Unambiguous, utf8Bom, escape]
  refine ⟨⟨[97, 44, 98, 10, 49, 44, 50, 10, 51], [97, 44, 98, 10, 49, 44, 50, 10, 51, 44, 52],
    toy_cut (by decide) (by decide) rfl (by decide) (by decide), by decide, ?_, fun h => absurd rfl h⟩, by decide, by simp,
    Or.inr (Or.inr (by decide))⟩
  refine ⟨by decide, fun name hm => ?_⟩
  have := (inferBom_iff _ _).2 hm
  cases this

/-- A frame, and the first half of another one. -/
def sampleCutProto : ProtoStore :=
  ⟨[⟨0, [1, 7, 5, 3], []⟩, ⟨0, [2, 9, 8, 7], []⟩],
    .memory [31, 1, 10, 1, 35, 1, 215, 1, 206, 1, 4, 3, 0, 1, 1, 1, 7, 1, 5, 1, 3, 1, 10, 1, 35, 1, 215, 1, 206] .gzip⟩

theorem sampleCutProto_cut (w : World) : sampleCutProto.Cut toyInflater w := by
  refine ⟨?_, ⟨_, toy_cut (by decide) (by decide) rfl (by decide) (by decide), by decide⟩, by decide⟩
  intro x hx
  simp only [sampleCutProto, List.mem_cons, List.not_mem_nil, or_false] at hx
  rcases hx with rfl | rfl
  · exact ⟨by decide, by decide, by decide, by decide⟩
  · exact ⟨by decide, by decide, by decide, by decide⟩

/-- The hypotheses of `C75_text_cut_partial`, `C75_csv_cut_partial` and `C75_messages_cut_partial` are met: good stores in front of
the one that was cut. -/
example : (∀ t ∈ sampleTextStores, t.Good toyInflater storeWorld) ∧ sampleCutText.Cut toyInflater storeWorld ∧
    (sampleTextStores ++ [sampleCutText]).flatMap (fun t => t.text.content) =
      [[97, 0xC3, 0xA9], [98], [99], [], [100], [99], [100, 101]] ∧
    Plainly sampleParams {} ∧ sampleCutCsv.Cut toyInflater storeWorld sampleParams ∧
    tableRows {} ((sampleCsvStores ++ [sampleCutCsv]).map fun t => t.table) =
      [[[49], [50]], [[53], [54, 120]], [[49], [50]], [[51], [52]]] ∧
    sampleCutProto.Cut toyInflater storeWorld ∧
    InstancesBefore (sampleProtoStores.map (fun t => t.frames) ++ [sampleCutProto.frames.take 1])
      [(0, some [1, 7, 5]), (1, some [2, 9, 8]), (2, some [1, 7, 5, 3])] :=
  ⟨sampleTextStores_good, sampleCutText_cut _, by decide, ⟨rfl, rfl, by decide, by decide, by decide, by decide⟩,
    sampleCutCsv_cut _, by decide, sampleCutProto_cut _, ⟨.inflateError, _, .complete (.split [] (.complete (.fail _ rfl)))⟩⟩

/-- The core reader of the model, with a good store, the one that was cut, and another one: it fails when it comes to the second. -/
example : (textStoreCore unicodeCodec toyInflater storeWorld 30
      [.memory (toyZip [97, 10, 98, 10]) .gzip, sampleCutText.store, .memory (toyZip [99, 10]) .gzip]).outs 4 .fresh =
    [.ok (some ⟨0, 0, some [97]⟩), .ok (some ⟨0, 1, some [98]⟩), .err .dataReader, .err .dataReader] := by decide +kernel

/-! ## Deviation -/

/-- **C75** is violated: a gzip file of two members that was cut in the header of the second one (`31` stands for such a header in
the toy format): it is not a gzip file, but the reader returns the lines of the first member and goes on with the next data store
as if nothing was missing, and signals the end of the dataset.  For a read that gets a block of the file that does not stand for
anything returns no bytes, `gzip_inflate_stream.cc` 38-72, and readers take that for the end of the stream. -/
theorem C75_truncated_violated : ∃ (z : Inflater) (all next : Bytes), (¬ ∃ ms c, GzFile z ms all c) ∧
    (∃ m c, MemberFrom z z.init m c ∧ m <+: all ∧ m ≠ all) ∧ ∀ w,
    (textStoreCore unicodeCodec z w 30 [.memory all .gzip, .memory next .gzip]).outs 5 .fresh =
      [.ok (some ⟨0, 0, some [97]⟩), .ok (some ⟨0, 1, some [98]⟩), .ok (some ⟨1, 0, some [99]⟩), .ok none, .ok none] := by
  refine ⟨toyInflater, toyZip [97, 10, 98, 10] ++ [31, 1], toyZip [99, 10], ?_, ?_, fun w => ?_⟩
  · rintro ⟨ms, c, h⟩
    obtain ⟨⟨s', h1⟩, _⟩ := gzFile_after h
    have : (after toyInflater toyInflater.init true (toyZip [97, 10, 98, 10] ++ [31, 1])).map (·.2) = some false := by decide
    rw [h1] at this
    simp at this
  · exact ⟨_, _, toyZip_member [97, 10, 98, 10], List.prefix_append _ _, by decide⟩
  · rfl

end Mlio
