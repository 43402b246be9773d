import Verif.Proofs.StoreReaders
import Verif.Props.EndToEnd
import Verif.Props.CsvReader
import Verif.Props.DataStore

/-!
# C74: from data stores to examples
-/

namespace Mlio
open Spec

variable {V : Type}

/-- The streams behind data stores with lines of text. -/
theorem textStores_opened {z : Inflater} {w : World} : ∀ stores : List TextStore, (∀ t ∈ stores, t.Good z w) →
    ∃ files : List (TextFile (storeSrc z)), (∀ f ∈ files, f.Good) ∧
      datasetLines files = stores.flatMap (fun t => t.text.content) ∧
      ∀ fuel, (stores.map fun t => t.store).map (Store.openWith z w (lineStore unicodeCodec (storeSrc z) fuel none)) =
        (files.map fun f => f.file.stream).map (lineStore unicodeCodec (storeSrc z) fuel none) := by
  intro stores hg
  induction stores with
  | nil => exact ⟨[], by simp, rfl, fun _ => rfl⟩
  | cons t ts ih =>
    obtain ⟨files, h1, h2, h3⟩ := ih (fun t ht => hg t (by simp [ht]))
    have ht := hg t (by simp)
    obtain ⟨f, e1, _, e2⟩ := store_stored ht.stored
    refine ⟨⟨t.text, t.enc, f⟩ :: files, ?_, ?_, fun fuel => ?_⟩
    · intro g hgm
      rcases List.mem_cons.1 hgm with rfl | hgm
      · exact ⟨ht.valid, ht.noMark, e2⟩
      · exact h1 g hgm
    · unfold datasetLines at h2 ⊢
      rw [List.flatMap_cons, List.flatMap_cons, h2]
    · rw [List.map_cons, List.map_cons, List.map_cons, List.map_cons, h3]
      congr 1
      simp only [Store.openWith, e1]

theorem textStores_files {z : Inflater} {w : World} : ∀ stores : List TextStore, (∀ t ∈ stores, t.Good z w) →
    ∃ files : List (TextFile (storeSrc z)), (∀ f ∈ files, f.Good) ∧ datasetLines files = stores.flatMap (fun t => t.text.content) ∧
      ∀ fuel, textStoreCore unicodeCodec z w fuel (stores.map fun t => t.store) =
        textLineCore unicodeCodec (storeSrc z) fuel (files.map fun f => f.file.stream) := by
  intro stores hg
  obtain ⟨files, h1, h2, h3⟩ := textStores_opened stores hg
  exact ⟨files, h1, h2, fun fuel => by unfold textStoreCore textLineCore; rw [h3]⟩

/-- **C74**, partial: a text line reader over data stores – files, mapped into memory or not, bytes in memory and S3 objects,
as they are or compressed with gzip, in UTF-8, UTF-16 or UTF-32 – delivers the selected lines of the stores, in the order of
the epoch, in batches, and all of them when it has signalled the end; it never fails.

Missing: what `StoreHolds` and `StoreHoldsText` leave out, for which the reader is known to be wrong. -/
theorem C74_text_partial (z : Inflater) (w : World) (R : Rng) (hR : R.Lawful) (o : ReadOptions) (stores : List TextStore)
    (hg : ∀ t ∈ stores, t.Good z w) (hlen : (stores.flatMap fun t => t.text.content).length < 2 ^ 64 - 1)
    (b : Nat) (hb : 0 < b) (l : LastHandling) (hl : l ≠ .padWarn) (P Q : Nat) (hP : 0 < P) :
    ∃ fuel0, ∀ fuel, fuel0 ≤ fuel → ∀ r,
      makeInstanceReader R o (textStoreCore unicodeCodec z w fuel (stores.map fun t => t.store)) = some r →
      ∀ s : PState (batched b l r) LinesExample, Reachable P Q textLineDecode s →
      ∃ lines, EpochOrder o (selected o (stores.flatMap fun t => t.text.content)) lines ∧
        delivered s.out <+: (batches b l lines).map lineExample ∧
        (.ok none ∈ s.out → delivered s.out = (batches b l lines).map lineExample) ∧
        (∀ e, .err e ∉ s.out) ∧ ∀ w, .ub w ∉ s.out := by
  obtain ⟨files, h1, h2, h3⟩ := textStores_files stores hg
  rw [← h2] at hlen ⊢
  obtain ⟨fuel0, h⟩ := C66_text_lines_partial R hR o files h1 hlen b hb l hl P Q hP
  refine ⟨fuel0, fun fuel hf => ?_⟩
  rw [h3]
  exact h fuel hf

/-- The streams behind data stores with tables. -/
theorem csvStores_opened {z : Inflater} {w : World} {p : CsvParams} : ∀ stores : List CsvStore, (∀ t ∈ stores, t.Good z w p) →
    ∃ files : List (CsvFile (storeSrc z)), (∀ f ∈ files, f.Good p) ∧
      (files.map fun f => f.table) = (stores.map fun t => t.table) ∧
      ∀ fuel, (stores.map fun t => t.store).map (Store.openWith z w (openLines unicodeCodec (storeSrc z) fuel none)) =
        (files.map fun f => f.file.stream).map (openLines unicodeCodec (storeSrc z) fuel none) := by
  intro stores hg
  induction stores with
  | nil => exact ⟨[], by simp, rfl, fun _ => rfl⟩
  | cons t ts ih =>
    obtain ⟨files, h1, h2, h3⟩ := ih (fun t ht => hg t (by simp [ht]))
    have ht := hg t (by simp)
    obtain ⟨f, e1, _, e2⟩ := store_stored ht.stored
    refine ⟨⟨t.table, t.enc, f⟩ :: files, ?_, ?_, fun fuel => ?_⟩
    · intro g hgm
      rcases List.mem_cons.1 hgm with rfl | hgm
      · exact ⟨ht.sheet, e2⟩
      · exact h1 g hgm
    · rw [List.map_cons, List.map_cons, h2]
    · rw [List.map_cons, List.map_cons, List.map_cons, List.map_cons, h3]
      congr 1
      simp only [Store.openWith, e1]

theorem csvStores_files {z : Inflater} {w : World} {p : CsvParams} : ∀ stores : List CsvStore, (∀ t ∈ stores, t.Good z w p) →
    ∃ files : List (CsvFile (storeSrc z)), (∀ f ∈ files, f.Good p) ∧ (files.map fun f => f.table) = (stores.map fun t => t.table) ∧
      ∀ o fuel, csvStoreCore unicodeCodec z w p o none fuel (stores.map fun t => t.store) =
        csvCore unicodeCodec (storeSrc z) p o none fuel (files.map fun f => f.file.stream) := by
  intro stores hg
  obtain ⟨files, h1, h2, h3⟩ := csvStores_opened stores hg
  exact ⟨files, h1, h2, fun o fuel => by unfold csvStoreCore csvCore; rw [h3]⟩

/-- The data rows of the tables, in order: without the headers. -/
def tableRows (o : CsvOpts) (tables : List Sheet) : List (List Bytes) :=
  tables.zipIdx.flatMap fun f => dataRows o f.2 f.1.values

theorem datasetRows_tables {m : SrcClass} (o : CsvOpts) (files : List (CsvFile m)) :
    datasetRows o files = tableRows o (files.map fun f => f.table) := by
  unfold datasetRows tableRows
  rw [List.zipIdx_map, List.flatMap_map]
  rfl

/-- **C74**, partial: the same for a CSV reader over data stores that hold tables: it delivers the deliverable batches of the
selected data rows, each value parsed and at its place; it fails only if a row is bad and that is to be an error.

Missing: what `CsvStore.Good` and `Plainly` leave out, see C67. -/
theorem C74_csv_partial (z : Inflater) (w : World) (R : Rng) (hR : R.Lawful) (o : ReadOptions) (p : CsvParams) (co : CsvOpts)
    (hp : Plainly p co) (stores : List CsvStore) (hg : ∀ t ∈ stores, t.Good z w p)
    (hsingle : co.singleHeader = true → ∀ h t, co.headerRow = some h → stores.head? = some t →
      co.columnNames ≠ [] ∨ h < t.table.values.length)
    (limit : FieldLimit) (warnBad : Bool) (bad : BadHandling) (cols : List (CsvCol V)) (dflt : V)
    (dec : Batch Inst → Except Err (Option (CsvExample V))) (hdec : CsvDecodes co.tok limit warnBad bad cols dflt dec)
    (hlen : (tableRows co (stores.map fun t => t.table)).length < 2 ^ 64 - 1)
    (b : Nat) (hb : 0 < b) (l : LastHandling) (hl : l ≠ .padWarn) (P Q : Nat) (hP : 0 < P) :
    ∃ fuel0, ∀ fuel, fuel0 ≤ fuel → ∀ r,
      makeInstanceReader R o (csvStoreCore unicodeCodec z w p co none fuel (stores.map fun t => t.store)) = some r →
      ∀ s : PState (batched b l r) (CsvExample V), Reachable P Q dec s →
      ∃ rows, EpochOrder o (selected o (tableRows co (stores.map fun t => t.table))) rows ∧
        (∀ (i : Nat) ex, (delivered s.out)[i]? = some ex →
          ∃ q, (deliverable (goodBatch co.tok.maxField limit cols) bad (batches b l rows))[i]? = some q ∧ HoldsRows co.tok.maxField limit cols q ex) ∧
        (.ok none ∈ s.out →
          (delivered s.out).length = (deliverable (goodBatch co.tok.maxField limit cols) bad (batches b l rows)).length ∧
          (bad = .error → ∀ q ∈ batches b l rows, goodBatch co.tok.maxField limit cols q = true)) ∧
        (∀ e, .err e ∈ s.out → e = .invalidInstance ∧ bad = .error ∧
          ∃ q ∈ batches b l rows, goodBatch co.tok.maxField limit cols q = false) ∧
        ∀ w, .ub w ∉ s.out := by
  obtain ⟨files, h1, h2, h3⟩ := csvStores_files stores hg
  rw [← h2, ← datasetRows_tables] at hlen ⊢
  obtain ⟨fuel0, h⟩ := C67_csv_rows_partial R hR o p co hp files h1 (by
    intro hs h f hh hf
    cases stores with
    | nil =>
      cases files with
      | nil => cases hf
      | cons g gs => cases h2
    | cons t ts =>
      cases files with
      | nil => cases hf
      | cons g gs =>
        simp only [List.map_cons, List.cons.injEq] at h2
        simp only [List.head?_cons, Option.some.injEq] at hf
        subst hf
        rw [h2.1]
        exact hsingle hs h t hh rfl) limit warnBad bad cols dflt dec hdec hlen b hb l hl P Q hP
  refine ⟨fuel0, fun fuel hf => ?_⟩
  rw [h3]
  exact h fuel hf

/-- The streams behind data stores with RecordIO frames. -/
theorem protoStores_opened {z : Inflater} {w : World} : ∀ stores : List ProtoStore, (∀ t ∈ stores, t.Good z w) →
    ∃ files : List (ProtoFile (storeIn z)), (∀ f ∈ files, f.Good) ∧
      (files.map fun f => f.frames) = (stores.map fun t => t.frames) ∧
      (stores.map fun t => t.store).map (Store.openWith z w fun s => .ok (some s.opened.reader)) =
        (files.map fun f => f.opened).map fun x => .ok (some x.reader) := by
  intro stores hg
  induction stores with
  | nil => exact ⟨[], by simp, rfl, rfl⟩
  | cons t ts ih =>
    obtain ⟨files, h1, h2, h3⟩ := ih (fun t ht => hg t (by simp [ht]))
    have ht := hg t (by simp)
    obtain ⟨s, e1, e2⟩ := C69_records_partial z w t.store t.frames ht.valid ht.holds ht.size
    refine ⟨⟨t.frames, s.opened⟩ :: files, ?_, ?_, ?_⟩
    · intro g hgm
      rcases List.mem_cons.1 hgm with rfl | hgm
      · exact e2
      · exact h1 g hgm
    · rw [List.map_cons, List.map_cons, h2]
    · rw [List.map_cons, List.map_cons, List.map_cons, List.map_cons, h3]
      congr 1
      simp only [Store.openWith, e1]

theorem protoStores_files {z : Inflater} {w : World} : ∀ stores : List ProtoStore, (∀ t ∈ stores, t.Good z w) →
    ∃ files : List (ProtoFile (storeIn z)), (∀ f ∈ files, f.Good) ∧ (files.map fun f => f.frames) = (stores.map fun t => t.frames) ∧
      ∀ fuel, protoStoreCore z w fuel (stores.map fun t => t.store) =
        protoCore (storeIn z) fuel (files.map fun f => f.opened) := by
  intro stores hg
  obtain ⟨files, h1, h2, h3⟩ := protoStores_opened stores hg
  exact ⟨files, h1, h2, fun fuel =>
    congrArg (fun l => coreReader (recMachine (storeIn z) recordioDecode fuel) l fuel) h3⟩

/-- The stores consist of the instances `is`, each in one frame or split over several. -/
def FramedInstances (frames : List (List Frame)) (is : List (Nat × Option Bytes)) : Prop :=
  Assembles .eof (items 0 (frames.map fun fs => .records (fs.map fun x => ⟨x.kind, x.payload⟩) none)).1 is .eof

/-- **C74**, partial: the same for a RecordIO-protobuf reader over data stores that hold frames.  Missing: see C68 and C69. -/
theorem C74_messages_partial (z : Inflater) (w : World) (R : Rng) (hR : R.Lawful) (o : ReadOptions) (stores : List ProtoStore)
    (hg : ∀ t ∈ stores, t.Good z w) (is : List (Nat × Option Bytes)) (hi : FramedInstances (stores.map fun t => t.frames) is)
    (parse : Bytes → Option (PRecord V)) (zero : V) (bad : BadHandling) (s : Schema) (hs : SchemaOk s)
    (hnames : ∀ x, some x ∈ messages parse is → NoClash x)
    (hsparse : bad = .pad ∨ bad = .padWarn → ∀ x ∈ messages parse is, IsBad s x → NoSparse s x)
    (dec : Batch Inst → Except Err (Option (ProtoExample V))) (hdec : ProtoDecodes parse zero bad s dec)
    (hlen : is.length < 2 ^ 64 - 1)
    (b : Nat) (hb : 0 < b) (halloc : ∀ a ∈ s.attrs, a.sparse = false → b * numElements a.shape.tail < 2 ^ 64)
    (l : LastHandling) (hl : l ≠ .padWarn) (P Q : Nat) (hP : 0 < P) :
    ∃ fuel0, ∀ fuel, fuel0 ≤ fuel → ∀ r,
      makeInstanceReader R o (protoStoreCore z w fuel (stores.map fun t => t.store)) = some r →
      ∀ st : PState (batched b l r) (ProtoExample V), Reachable P Q dec st →
      ∃ ms, EpochOrder o (selected o (messages parse is)) ms ∧
        (∀ (i : Nat) ex, (delivered st.out)[i]? = some ex →
          ∃ q, (deliverable (goodMessages s) bad (batches b l ms))[i]? = some q ∧ HoldsMessages zero s q ex) ∧
        (.ok none ∈ st.out →
          (delivered st.out).length = (deliverable (goodMessages s) bad (batches b l ms)).length ∧
          (bad = .error → ∀ q ∈ batches b l ms, goodMessages s q = true)) ∧
        (∀ e, .err e ∈ st.out → e = .invalidInstance ∧ bad = .error ∧
          ∃ q ∈ batches b l ms, goodMessages s q = false) ∧
        ∀ w, .ub w ∉ st.out := by
  obtain ⟨files, h1, h2, h3⟩ := protoStores_files stores hg
  obtain ⟨fuel0, h⟩ := C68_messages_partial R hR o files h1 is (by
    unfold FramedInstances at hi
    rw [← h2, List.map_map] at hi
    exact hi) parse zero bad s hs hnames hsparse dec hdec hlen b hb halloc l hl P Q hP
  refine ⟨fuel0, fun fuel hf => ?_⟩
  rw [h3]
  exact h fuel hf

/-! ## Samples -/

/-- A file `a` with the line `aé` and the line `b` in UTF-16 (little endian), delivered a byte at a time at first, and an
object `b/k` with the header `a,b` and the row `5,6x`. -/
def storeWorld : World where
  files p := if p = [97] then some ([0xFF, 0xFE, 97, 0, 0xE9, 0, 10, 0, 98, 0], [1, 1, 1, 1, 1]) else none
  objects b k v := if b = [98] ∧ k = [107] ∧ v = [] then some [97, 44, 98, 10, 53, 44, 54, 120] else none

/-- A gzip file in memory holds the bytes. -/
theorem toy_holds {w : World} {x : Bytes} (hlen : (toyZip x).length ≤ 0x80000)
    (hc : checkBlocks toyInflater toyInflater.init true [toyZip x] = true) :
    StoreHolds toyInflater w (.memory (toyZip x) .gzip) x := by
  refine ⟨_, rfl, by omega, Or.inr ⟨rfl, ⟨[(toyZip x, x)], ?_, by simp, by simp⟩, ?_⟩⟩
  · intro m hm
    simp only [List.mem_cons, List.not_mem_nil, or_false] at hm
    subst hm
    exact toyZip_member _
  · intro s blocks hs hd
    cases hs
    rw [delivers_fun hd (memory_block (by simp [toyZip]) hlen)]
    exact audible_of_check hc

/-- The file, and `c`, CRLF, LF, `d` compressed in memory. -/
def sampleTextStores : List TextStore :=
  [⟨⟨[([97, 0xC3, 0xA9], .lf)], [98]⟩, .utf16 false, .file [97] false .none⟩,
   ⟨⟨[([99], .crlf), ([], .lf)], [100]⟩, .utf8, .memory (toyZip [99, 13, 10, 10, 100]) .gzip⟩]

theorem sampleTextStores_good : ∀ t ∈ sampleTextStores, t.Good toyInflater storeWorld := by
  intro t ht
  simp only [sampleTextStores, List.mem_cons, List.not_mem_nil, or_false] at ht
  rcases ht with rfl | rfl
  · refine ⟨⟨by simp [Plain], by simp [Plain], by simp [Unambiguous]⟩, by simp [Text.content, utf8Bom], ?_⟩
    exact ⟨⟨[0xFF, 0xFE, 97, 0, 0xE9, 0, 10, 0, 98, 0], ⟨_, ⟨[1, 1, 1, 1, 1], rfl⟩, by decide, Or.inl ⟨rfl, rfl⟩⟩,
        ⟨['a', 'é', '\n', 'b'], by decide, by decide⟩, fun _ _ => Or.inl rfl⟩, by simp [Text.bytes, Term.bytes],
      by simp [Text.bytes], Or.inr (Or.inl (by simp [Text.bytes, Term.bytes, chunkSize]))⟩
  · refine ⟨⟨by simp [Plain], by simp [Plain], by simp [Unambiguous]⟩, by simp [Text.content, utf8Bom], ?_⟩
    refine ⟨⟨[99, 13, 10, 10, 100], toy_holds (by decide) (by decide), ⟨rfl, fun name hm => ?_⟩, fun h => absurd rfl h⟩,
      by simp [Text.bytes, Term.bytes], by simp, Or.inr (Or.inl (by simp [Text.bytes, Term.bytes, chunkSize]))⟩
    have := (inferBom_iff _ _).2 hm
    exact absurd this (by simp [inferBom])

/-- The hypotheses of `C74_text_partial` hold for the sample. -/
example : (∀ t ∈ sampleTextStores, t.Good toyInflater storeWorld) ∧ trivialRng.Lawful ∧
    (sampleTextStores.flatMap fun t => t.text.content) = [[97, 0xC3, 0xA9], [98], [99], [], [100]] :=
  ⟨sampleTextStores_good, ⟨fun _ _ => Nat.le_refl _, fun _ _ => List.Perm.refl _⟩, by decide⟩

/-- A table `a,b` / `#` / `1,2` compressed in memory, and the object. -/
def sampleCsvStores : List CsvStore :=
  [⟨⟨[(.row [⟨[97], false⟩, ⟨[98], false⟩], .lf), (.other [35], .lf)], .row [⟨[49], false⟩, ⟨[50], false⟩]⟩, .utf8,
      .memory (toyZip [97, 44, 98, 10, 35, 10, 49, 44, 50]) .gzip⟩,
   ⟨⟨[(.row [⟨[97], false⟩, ⟨[98], false⟩], .lf)], .row [⟨[53], false⟩, ⟨[54, 120], false⟩]⟩, .utf8,
      .object [115, 51, 58, 47, 47, 98, 47, 107] [] .none⟩]

theorem sampleCsvStores_good : ∀ t ∈ sampleCsvStores, t.Good toyInflater storeWorld sampleParams := by
  intro t ht
  simp only [sampleCsvStores, List.mem_cons, List.not_mem_nil, or_false] at ht
  rcases ht with rfl | rfl
  · refine ⟨⟨?_, ?_, Or.inr ?_, ?_, ?_, ?_, ?_, ?_, ?_, ?_⟩, ?_⟩
    all_goals try simp [Sheet.rows, Sheet.all, SheetLine.fields?, SheetLine.bytes, Sheet.text, sampleParams, isRow, rowBytes,
      Field.bytes, Field.Ok, Field.NoBreak, Plain, Unambiguous, utf8Bom, escape]
    refine ⟨⟨[97, 44, 98, 10, 35, 10, 49, 44, 50], toy_holds (by decide) (by decide), ⟨by decide, fun name hm => ?_⟩, fun h => absurd rfl h⟩,
      by decide, by simp, Or.inr (Or.inl (by decide))⟩
    have := (inferBom_iff _ _).2 hm
    exact absurd this (by simp [inferBom])
  · refine ⟨⟨?_, ?_, Or.inr ?_, ?_, ?_, ?_, ?_, ?_, ?_, ?_⟩, ?_⟩
    all_goals try simp [Sheet.rows, Sheet.all, SheetLine.fields?, SheetLine.bytes, Sheet.text, sampleParams, isRow, rowBytes,
      Field.bytes, Field.Ok, Field.NoBreak, Plain, Unambiguous, utf8Bom, escape]
    refine ⟨⟨[97, 44, 98, 10, 53, 44, 54, 120],
        ⟨_, ⟨[98], [107], ⟨by decide, by decide, by decide, by decide⟩, rfl⟩, by decide, Or.inl ⟨rfl, rfl⟩⟩,
        ⟨by decide, fun name hm => ?_⟩, fun h => absurd rfl h⟩,
      by decide, by simp, Or.inr (Or.inl (by decide))⟩
    have := (inferBom_iff _ _).2 hm
    exact absurd this (by simp [inferBom])

/-- The hypotheses of `C74_csv_partial` hold for the sample. -/
example : Plainly sampleParams {} ∧ (∀ t ∈ sampleCsvStores, t.Good toyInflater storeWorld sampleParams) ∧
    tableRows {} (sampleCsvStores.map fun t => t.table) = [[[49], [50]], [[53], [54, 120]]] ∧
    ∃ dec, CsvDecodes {} .treatAsBad false .pad [digitCol, digitCol] 0 dec := by
  exact ⟨⟨rfl, rfl, by decide, by decide, by decide, by decide⟩, sampleCsvStores_good, by decide, csvDecodes_exists _ _ _ _ _ _ (fun _ => rfl)⟩

/-- A message, and the two parts of another one: compressed in memory, and in memory. -/
def sampleProtoStores : List ProtoStore :=
  [⟨[⟨0, [1, 7, 5], [0]⟩, ⟨1, [2], [0, 0, 0]⟩], .memory (toyZip (recordioFile [⟨0, [1, 7, 5], [0]⟩, ⟨1, [2], [0, 0, 0]⟩])) .gzip⟩,
   ⟨[⟨3, [9, 8], [0, 0]⟩], .memory (recordioFile [⟨3, [9, 8], [0, 0]⟩]) .none⟩]

theorem sampleProtoStores_good : ∀ t ∈ sampleProtoStores, t.Good toyInflater storeWorld := by
  intro t ht
  simp only [sampleProtoStores, List.mem_cons, List.not_mem_nil, or_false] at ht
  rcases ht with rfl | rfl
  · refine ⟨?_, toy_holds (by decide) (by decide), by decide⟩
    intro x hx
    simp only [List.mem_cons, List.not_mem_nil, or_false] at hx
    rcases hx with rfl | rfl <;> exact ⟨by decide, by decide, by decide, by decide⟩
  · refine ⟨?_, ⟨_, rfl, by decide, Or.inl ⟨rfl, rfl⟩⟩, by decide⟩
    intro x hx
    simp only [List.mem_cons, List.not_mem_nil, or_false] at hx
    subst hx
    exact ⟨by decide, by decide, by decide, by decide⟩

/-- The hypotheses of `C74_messages_partial` hold for the sample (see `C68_messages_partial` for those about messages). -/
example : (∀ t ∈ sampleProtoStores, t.Good toyInflater storeWorld) ∧
    FramedInstances (sampleProtoStores.map fun t => t.frames) [(0, some [1, 7, 5]), (1, some [2, 9, 8])] ∧
    ∃ dec, ProtoDecodes sampleParse 0 .skip exSchema dec := by
  refine ⟨sampleProtoStores_good, .complete (.split [] (.eof rfl)), ?_⟩
  · exact protoDecodes_exists _ _ _ _ (fun n => by simp [protoRunsSerially, exSchema, exSparse])

end Mlio
