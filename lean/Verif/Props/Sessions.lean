import Verif.Proofs.Sessions
import Verif.Props.StoreReaders

/-! # C89: a program that lists files, makes a reader and loops over epochs sees the dataset -/

namespace Mlio
open Spec Machine

variable {V : Type}

theorem filesOf_ne : ∀ (x : FsNode) (p : Bytes), p ≠ [] → ∀ u ∈ filesOf p x, u ≠ []
  | .file, p, hp, u, hu => by simp [filesOf] at hu; exact hu ▸ hp
  | .special, p, _, u, hu => by simp [filesOf] at hu
  | .broken, p, _, u, hu => by simp [filesOf] at hu
  | .failing, p, _, u, hu => by simp [filesOf] at hu
  | .dir es, p, hp, u, hu => by
    rw [filesOf_dir] at hu
    obtain ⟨e, he, hu⟩ := List.mem_flatMap.1 hu
    have : sizeOf e.2 < 1 + sizeOf es := by
      have h1 := List.sizeOf_lt_of_mem he
      have h2 : sizeOf e = 1 + sizeOf e.1 + sizeOf e.2 := rfl
      omega
    refine filesOf_ne e.2 (below p e.1) ?_ u hu
    unfold below
    split <;> simp [hp]
termination_by x => sizeOf x

/-- **C89**, **C82**: the data stores that `list_files` makes: for every file at and below the paths that passes the filters one, in the order
of C82, with the compression that is given or that its name says – if no name ends in a backslash. -/
theorem C89_stores_partial (signed : Bool) (sort : List (Bytes × List FtsEntry) → List (Bytes × List FtsEntry))
    (hsort : Sorts (fun a b => natLess signed a.1 b.1) sort) (pattern : Option (Bytes → Option Bool))
    (predicate : Option (Bytes → Bool)) (hpat : ∀ u f, pattern = some f → f u ≠ none) (memoryMap : Bool) (c : Compression)
    (roots : List (Bytes × FsNode)) (hsome : roots ≠ []) (hroots : ∀ r ∈ roots, r.1 ≠ [] ∧ ¬ Unreadable r.2)
    (hnames : ∀ r ∈ roots, ∀ u ∈ filesOf r.1 r.2, Passes pattern predicate u = true → u.getLast? ≠ some 47 ∧ u.getLast? ≠ some 92) :
    ∃ us, Listings (natLess signed) roots us ∧ us.Perm (roots.flatMap fun r => filesOf r.1 r.2) ∧
      listTreeStores pattern predicate memoryMap c sort roots = .ok ((us.filter (Passes pattern predicate)).map fun u =>
        .file u memoryMap (if c = .infer then inferCompression u else c)) := by
  obtain ⟨us, h1, h2, h3⟩ := (C82_listed_partial signed sort hsort pattern predicate hpat roots).1 hsome hroots
  refine ⟨us, h1, h2, ?_⟩
  have hmem : ∀ u ∈ us.filter (Passes pattern predicate), ∃ r ∈ roots, u ∈ filesOf r.1 r.2 := by
    intro u hu
    exact List.mem_flatMap.1 (h2.mem_iff.1 (List.mem_filter.1 hu).1)
  have hany : (roots.any fun r => r.1.isEmpty) = false := by
    rw [List.any_eq_false]
    intro r hr
    simpa using (hroots r hr).1
  unfold listTrees at h3
  rw [if_neg (by simpa using hsome), hany] at h3
  unfold listTreeStores
  rw [if_neg (by simpa using hsome), hany]
  exact (listStores_spec pattern predicate memoryMap c _ _ h3 (fun u hu => by
      obtain ⟨r, hr, hu⟩ := hmem u hu
      exact filesOf_ne r.2 r.1 (hroots r hr).1 u hu)).1 (fun u hu => by
      obtain ⟨r, hr, hu'⟩ := hmem u hu
      exact hnames r hr u hu' (List.mem_filter.1 hu).2)

/-- C82 is violated by names that end in a backslash, which file systems other than those of Windows allow: one such file among those that
pass the filters, and the whole listing fails with an invalid argument. -/
theorem C82_backslash_violated (signed : Bool) (sort : List (Bytes × List FtsEntry) → List (Bytes × List FtsEntry))
    (hsort : Sorts (fun a b => natLess signed a.1 b.1) sort) (pattern : Option (Bytes → Option Bool))
    (predicate : Option (Bytes → Bool)) (hpat : ∀ u f, pattern = some f → f u ≠ none) (memoryMap : Bool) (c : Compression)
    (roots : List (Bytes × FsNode)) (hsome : roots ≠ []) (hroots : ∀ r ∈ roots, r.1 ≠ [] ∧ ¬ Unreadable r.2)
    (hname : ∃ r ∈ roots, ∃ u ∈ filesOf r.1 r.2, Passes pattern predicate u = true ∧ u.getLast? = some 92) :
    listTreeStores pattern predicate memoryMap c sort roots = .err .invalidArgument := by
  obtain ⟨us, h1, h2, h3⟩ := (C82_listed_partial signed sort hsort pattern predicate hpat roots).1 hsome hroots
  have hany : (roots.any fun r => r.1.isEmpty) = false := by
    rw [List.any_eq_false]
    intro r hr
    simpa using (hroots r hr).1
  unfold listTrees at h3
  rw [if_neg (by simpa using hsome), hany] at h3
  unfold listTreeStores
  rw [if_neg (by simpa using hsome), hany]
  obtain ⟨r, hr, u, hu, hp, hl⟩ := hname
  refine (listStores_spec pattern predicate memoryMap c _ _ h3 (fun u hu => ?_)).2 ⟨u, ?_, .inr hl⟩
  · obtain ⟨r, hr, hu⟩ := List.mem_flatMap.1 (h2.mem_iff.1 (List.mem_filter.1 hu).1)
    exact filesOf_ne r.2 r.1 (hroots r hr).1 u hu
  · exact List.mem_filter.2 ⟨h2.mem_iff.2 (List.mem_flatMap.2 ⟨r, hr, hu⟩), hp⟩

/-- `d` with the files `a`, `b.gz` and (the second time) `c\`. -/
example : (∀ r ∈ [(([100] : Bytes), FsNode.dir [([97], .file), ([98, 46, 103, 122], .file)])], r.1 ≠ [] ∧ ¬ Unreadable r.2) ∧
    listTreeStores none none true .infer (qsortNames true) [([100], .dir [([97], .file), ([98, 46, 103, 122], .file)])] =
      .ok [.file [100, 47, 97] true .none, .file [100, 47, 98, 46, 103, 122] true .gzip] ∧
    listTreeStores none none true .infer (qsortNames true) [([100], .dir [([97], .file), ([99, 92], .file)])] = .err .invalidArgument := by
  refine ⟨?_, ?_, ?_⟩
  · intro r hr
    simp only [List.mem_singleton] at hr
    subst hr
    refine ⟨by simp, fun h => ?_⟩
    cases h with
    | inside _ e he hu =>
      simp only [List.mem_cons, List.not_mem_nil, or_false] at he
      rcases he with rfl | rfl <;> cases hu
  · simp [listTreeStores, walk_dir, walk, ← joinPath_below, joinPath, qsortNames, listStores, wanted, List.mergeSort,
      List.MergeSort.Internal.splitInTwo, List.merge, natLess, strnatcmp, cstr, natLoop, natSpace, natDigit, compareRuns,
      compareRight, charVal, makeFile, validateFilePath]
    decide
  · simp [listTreeStores, walk_dir, walk, ← joinPath_below, joinPath, qsortNames, listStores, wanted, List.mergeSort,
      List.MergeSort.Internal.splitInTwo, List.merge, natLess, strnatcmp, cstr, natLoop, natSpace, natDigit, compareRuns,
      compareRight, charVal, makeFile, validateFilePath]

theorem textInfer_eq (b : Nat) (mem : Unit) (i : Option Inst) :
    (textInfer b mem i).1 = .ok (some ⟨[⟨[118, 97, 108, 117, 101], .string, [b, 1], [1, 1], false⟩], [([118, 97, 108, 117, 101], 0)]⟩) := by
  rfl

/-- **C89**, partial, text: a program that makes a text line reader over data stores and then calls `read_schema`, `read_example`,
`peek_example` and `reset` as it likes – in every state that these calls and any schedule of the threads lead to, with the lines of the stores
in `content`: the calls of the present epoch have returned the batches of the selected lines, in an order that the
options allow, each once, and the end after all of them; they never fail; `num_bytes_read` is the size of the lines when the end is
reached; the schema is the one column `value`; nothing is raced for, and no call that has not returned is stuck.

Missing: what `TextStore.Good` leaves out, see C74; `pad_warn`, see C24. -/
theorem C89_text_partial (z : Inflater) (w : World) (R : Rng) (hR : R.Lawful) (o : ReadOptions) (stores : List TextStore)
    (hg : ∀ t ∈ stores, t.Good z w) (hlen : (stores.flatMap fun t => t.text.content).length < 2 ^ 64 - 1)
    (b : Nat) (hb : 0 < b) (l : LastHandling) (hl : l ≠ .padWarn) (P Q : Nat) (hP : 0 < P) (hQ : 0 < Q) :
    ∃ fuel0, ∀ fuel, fuel0 ≤ fuel → ∀ r : Machine Inst,
      makeInstanceReader R o (textStoreCore unicodeCodec z w fuel (stores.map fun t => t.store)) = some r.base →
      ∀ s : WState b l r LinesExample Schema Unit, WReachable P Q instanceBytes textLineDecode (textInfer b) () s →
      (∃ lines, EpochOrder o (selected o (stores.flatMap fun t => t.text.content)) lines ∧
        BatchSession (fun q ex => ex = lineExample q) (fun _ => true) .error (batches b l lines) s.d.hist ∧
        (∀ c, (c, .ok none) ∈ s.d.hist → s.d.bytes = lineBytes (batches b l lines))) ∧
      (∀ t ∈ s.told, ∃ sc, t = .ok (some sc) ∧ sc.attrs = [⟨[118, 97, 108, 117, 101], .string, [b, 1], [1, 1], false⟩]) ∧
      s.race = false ∧
      (s.d.p.consumer ≠ .idle → ∃ a s', wstep P Q instanceBytes textLineDecode (textInfer b) (.dact (.sys a)) s = some s') := by
  obtain ⟨files, h1, h2, h3⟩ := textStores_files stores hg
  rw [← h2] at hlen ⊢
  obtain ⟨fuel0, hy⟩ := textLineCore_yields files h1
  refine ⟨fuel0, fun fuel hf r hm s hs => ?_⟩
  rw [h3] at hm
  have hflat := rowInstances_flat files
  have hlen' : (rowInstances (files.map fun f => f.text.content)).length < 2 ^ 64 - 1 := by
    rw [← List.length_map (fun i : Inst => i.bits.getD []), hflat]; exact hlen
  obtain ⟨ys, k1, k2, k3, _, k5, k6, _, k8, k9, _, _⟩ := dataset_session R hR o _ _ (renews_of_resets (fun _ => rfl) (hy fuel hf)) hlen' hb hl hm hP hQ
    (fun mem x => by rw [textInfer_eq]; simp) () s hs
  have hd : ∀ q ∈ batches b l ys, textLineDecode q = .ok (some (lineExample (q.map fun i => i.bits.getD []))) :=
    fun q hq => textLineDecode_ok q (batches_fit b hb l ys q hq).1
  refine ⟨⟨ys.map fun i => i.bits.getD [], ?_, ?_, ?_⟩, ?_, k8, k9⟩
  · rw [← hflat, selected_map]
    exact epochOrder_map _ o _ _ k1
  · rw [batches_map]
    exact batchSession_of (fun q => q.map fun i => i.bits.getD []) (fun _ => true) .error (fun q ex => ex = lineExample q) _
      (fun q hq => by simp [hd q hq]) k2 k3
  · intro c hc
    rw [k5 c hc, fruitful_all fun q hq => ⟨_, hd q hq⟩, bytesOf_lines, batches_map]
  · intro t ht
    obtain ⟨zs, mem', _, rfl⟩ := k6 t ht
    exact ⟨_, textInfer_eq b mem' _, rfl⟩

/-- **C89**, partial, CSV: the same for a CSV reader over data stores with tables, whatever its `infer_schema` does: the calls return
the deliverable batches of the selected data rows, each value parsed and at its place; they fail only because of a bad row, if that is to be an
error.

Missing: what `CsvStore.Good` and `Plainly` leave out, see C67 and C74; `pad_warn`, see C24; that the columns are those of the
schema, see C34. -/
theorem C89_csv_partial {S ι : Type} (z : Inflater) (w : World) (R : Rng) (hR : R.Lawful) (o : ReadOptions) (p : CsvParams) (co : CsvOpts)
    (hp : Plainly p co) (stores : List CsvStore) (hg : ∀ t ∈ stores, t.Good z w p)
    (hsingle : co.singleHeader = true → ∀ h t, co.headerRow = some h → stores.head? = some t →
      co.columnNames ≠ [] ∨ h < t.table.values.length)
    (limit : FieldLimit) (warnBad : Bool) (bad : BadHandling) (cols : List (CsvCol V)) (dflt : V)
    (dec : Batch Inst → Except Err (Option (CsvExample V))) (hdec : CsvDecodes co.tok limit warnBad bad cols dflt dec)
    (hlen : (tableRows co (stores.map fun t => t.table)).length < 2 ^ 64 - 1) (infer : Infer Inst S ι)
    (hnn : ∀ mem x, (infer mem (some x)).1 ≠ .ok none) (mem : ι)
    (b : Nat) (hb : 0 < b) (l : LastHandling) (hl : l ≠ .padWarn) (P Q : Nat) (hP : 0 < P) (hQ : 0 < Q) :
    ∃ fuel0, ∀ fuel, fuel0 ≤ fuel → ∀ r : Machine Inst,
      makeInstanceReader R o (csvStoreCore unicodeCodec z w p co none fuel (stores.map fun t => t.store)) = some r.base →
      ∀ s : WState b l r (CsvExample V) S ι, WReachable P Q instanceBytes dec infer mem s →
      (∃ rows, EpochOrder o (selected o (tableRows co (stores.map fun t => t.table))) rows ∧
        BatchSession (HoldsRows co.tok.maxField limit cols) (goodBatch co.tok.maxField limit cols) bad (batches b l rows) s.d.hist) ∧
      (∀ x y, .ok (some x) ∈ s.told → .ok (some y) ∈ s.told → x = y) ∧ s.race = false ∧
      (s.d.p.consumer ≠ .idle → ∃ a s', wstep P Q instanceBytes dec infer (.dact (.sys a)) s = some s') := by
  obtain ⟨files, h1, h2, h3⟩ := csvStores_files stores hg
  rw [← h2, ← datasetRows_tables] at hlen ⊢
  obtain ⟨fuel0, hy⟩ := csvCore_renews hp files h1 (by
    intro hs h f hh hf
    cases stores with
    | nil =>
      cases files with
      | nil => cases hf
      | cons g gs => cases h2
    | cons t ts =>
      cases files with
      | nil => cases hf
      | cons g gs =>
        simp only [List.map_cons, List.cons.injEq] at h2
        simp only [List.head?_cons, Option.some.injEq] at hf
        subst hf
        rw [h2.1]
        exact hsingle hs h t hh rfl)
  refine ⟨fuel0, fun fuel hf r hm s hs => ?_⟩
  rw [h3] at hm
  obtain ⟨f1, f2⟩ := dataBytes_fields hp files h1
  have hbits := rowInstances_bits (dataBytes p co files)
  have hflat : (rowInstances (dataBytes p co files)).map (fun i => rowFields co.tok (i.bits.getD [])) =
      datasetRows co files := by
    rw [← f1, ← hbits, List.map_map]
    rfl
  have hlen' : (rowInstances (dataBytes p co files)).length < 2 ^ 64 - 1 := by
    rw [← List.length_map (fun i : Inst => rowFields co.tok (i.bits.getD [])), hflat]; exact hlen
  obtain ⟨ys, k1, k2, k3, _, _, _, k7, k8, k9, _, _⟩ := dataset_session R hR o _ _ (hy fuel hf) hlen' hb hl hm hP hQ hnn mem s hs
  have hmem : ∀ i ∈ ys, tokenize co.tok (i.bits.getD []) =
        ((rowFields co.tok (i.bits.getD [])).map (cutField co.tok.maxField), .ok ()) := by
    intro i hi
    have hi := selected_mem o _ i (epochOrder_mem o _ _ k1 i hi)
    refine f2 _ ?_
    rw [← hbits]
    exact List.mem_map.2 ⟨i, hi, rfl⟩
  refine ⟨⟨ys.map fun i => rowFields co.tok (i.bits.getD []), ?_, ?_⟩, k7, k8, k9⟩
  · rw [← hflat, selected_map]
    exact epochOrder_map _ o _ _ k1
  · rw [batches_map]
    exact batchSession_of (fun q => q.map fun i => rowFields co.tok (i.bits.getD [])) _ _ _ _ (fun q hq =>
      csvDecodes_batch hdec q (batches_fit b hb l ys q hq).1 (fun i hi => hmem i (batches_mem b hb l ys q hq i hi))) k2 k3

/-- **C89**, partial, RecordIO-protobuf: the same for a RecordIO-protobuf reader over data stores with frames.  Every schema that it has
inferred is that of the first message of an epoch; if `sc` is the schema, the calls return the deliverable batches of the selected messages.

Missing: see C68 and C69; `pad_warn`, see C24. -/
theorem C89_messages_partial (z : Inflater) (w : World) (R : Rng) (hR : R.Lawful) (o : ReadOptions) (stores : List ProtoStore)
    (hg : ∀ t ∈ stores, t.Good z w) (is : List (Nat × Option Bytes)) (hi : FramedInstances (stores.map fun t => t.frames) is)
    (parse : Bytes → Option (PRecord V)) (zero : V) (bad : BadHandling)
    (hnames : ∀ x, some x ∈ messages parse is → NoClash x) (dec : Batch Inst → Except Err (Option (ProtoExample V)))
    (hlen : is.length < 2 ^ 64 - 1) (b : Nat) (hb : 0 < b) (l : LastHandling) (hl : l ≠ .padWarn) (P Q : Nat) (hP : 0 < P) (hQ : 0 < Q) :
    ∃ fuel0, ∀ fuel, fuel0 ≤ fuel → ∀ r : Machine Inst,
      makeInstanceReader R o (protoStoreCore z w fuel (stores.map fun t => t.store)) = some r.base →
      ∀ s : WState b l r (ProtoExample V) Schema Unit, WReachable P Q instanceBytes dec (messageInfer parse b) () s →
      (∀ t ∈ s.told, ∃ ms, EpochOrder o (selected o (messages parse is)) ms ∧ t = protoSchema b ms.head?) ∧
      (∀ x y, .ok (some x) ∈ s.told → .ok (some y) ∈ s.told → x = y) ∧
      (∀ sc, .ok (some sc) ∈ s.told → SchemaOk sc → ProtoDecodes parse zero bad sc dec →
        (bad = .pad ∨ bad = .padWarn → ∀ x ∈ messages parse is, IsBad sc x → NoSparse sc x) →
        (∀ a ∈ sc.attrs, a.sparse = false → b * numElements a.shape.tail < 2 ^ 64) →
        ∃ ms, EpochOrder o (selected o (messages parse is)) ms ∧
          BatchSession (HoldsMessages zero sc) (goodMessages sc) bad (batches b l ms) s.d.hist) ∧
      s.race = false ∧
      (s.d.p.consumer ≠ .idle → ∃ a s', wstep P Q instanceBytes dec (messageInfer parse b) (.dact (.sys a)) s = some s') := by
  obtain ⟨files, h1, h2, h3⟩ := protoStores_files stores hg
  obtain ⟨fuel0, hy⟩ := protoCore_renews files h1 is (by
    unfold FramedInstances at hi
    rw [← h2, List.map_map] at hi
    exact hi)
  refine ⟨fuel0, fun fuel hf r hm s hs => ?_⟩
  rw [h3] at hm
  have hflat : (number [] is).map (fun i => parse (i.bits.getD [])) = messages parse is := by
    have := congrArg (List.map parse) (number_bits is [])
    rw [List.map_map, List.map_map] at this
    exact this
  have hlen' : (number [] is).length < 2 ^ 64 - 1 := by
    rw [← List.length_map (fun i : Inst => parse (i.bits.getD [])), hflat, messages, List.length_map]; exact hlen
  obtain ⟨ys, k1, k2, k3, _, _, k6, k7, k8, k9, _, _⟩ := dataset_session R hR o _ _ (hy fuel hf) hlen' hb hl hm hP hQ (by
    intro mem x
    simp only [messageInfer, Option.map_some]
    cases parse (x.bits.getD []) with
    | none => simp [protoSchema]
    | some rec =>
      simp only [protoSchema]
      cases protoAttrs b rec.entries with
      | ok as => cases h : makeSchema as <;> simp [h]
      | err e => simp
      | ub u => simp) () s hs
  have order : ∀ zs, EpochOrder o (selected o (number [] is)) zs →
      EpochOrder o (selected o (messages parse is)) (zs.map fun i => parse (i.bits.getD [])) := by
    intro zs hz
    rw [← hflat, selected_map]
    exact epochOrder_map _ o _ _ hz
  have hmem : ∀ i ∈ ys, parse (i.bits.getD []) ∈ messages parse is := by
    intro i hi
    have hi := selected_mem o _ i (epochOrder_mem o _ _ k1 i hi)
    rw [← hflat]
    exact List.mem_map.2 ⟨i, hi, rfl⟩
  refine ⟨?_, k7, ?_, k8, k9⟩
  · intro t ht
    obtain ⟨zs, mem', hz, rfl⟩ := k6 t ht
    exact ⟨_, order zs hz, by rw [List.head?_map]; rfl⟩
  · intro sc _ hsc hdec hsparse halloc
    refine ⟨_, order ys k1, ?_⟩
    rw [batches_map]
    exact batchSession_of (fun q => q.map fun i => parse (i.bits.getD [])) _ _ _ _ (fun q hq =>
      protoDecodes_batch hsc hdec q
        ⟨by rw [List.length_map]; exact (batches_fit b hb l ys q hq).1,
          fun a ha hsp => Nat.lt_of_le_of_lt (Nat.mul_le_mul_right _ (batches_size b hb l ys q hq)) (halloc a ha hsp),
          by
            intro x hx y hy
            obtain ⟨i, hi, rfl⟩ := List.mem_map.1 hx
            exact hnames y (hy ▸ hmem i (batches_mem b hb l ys q hq i hi))⟩
        (fun hp i hi => hsparse hp _ (hmem i (batches_mem b hb l ys q hq i hi)))) k2 k3

/-- Every reader is of the form that these theorems are about. -/
theorem made_base {α : Type} (R : Rng) (o : ReadOptions) (core m : Machine α) (h : makeInstanceReader R o core = some m) :
    ∃ r : Machine α, makeInstanceReader R o core = some r.base := by
  obtain ⟨r, rfl⟩ := make_base R o core m h
  exact ⟨r, h⟩

/-- The hypotheses of `C89_text_partial` hold for the samples of C74: there is a reader, and it can be asked for its schema. -/
example (fuel : Nat) : (∀ t ∈ sampleTextStores, t.Good toyInflater storeWorld) ∧
    (sampleTextStores.flatMap fun t => t.text.content) = [[97, 0xC3, 0xA9], [98], [99], [], [100]] ∧
    ∃ r : Machine Inst, makeInstanceReader trivialRng {}
        (textStoreCore unicodeCodec toyInflater storeWorld fuel (sampleTextStores.map fun t => t.store)) = some r.base ∧
      ∃ s : WState 2 .pad r LinesExample Schema Unit, wrun 3 3 instanceBytes textLineDecode (textInfer 2) [.readSchema] (WState.init 2 .pad r ()) = some s := by
  refine ⟨sampleTextStores_good, by decide, _, rfl, ?_⟩
  simp only [wrun, wstep, WState.init, DState.init]
  exact ⟨_, rfl⟩

/-- The hypotheses of `C89_csv_partial` and `C89_messages_partial` about inferring schemas hold (for the others see
`C74_csv_partial` and `C74_messages_partial`): the schema of the first sample message is one. -/
example : (∀ mem x, (textInfer 2 mem (some x)).1 ≠ .ok none) ∧
    (messageInfer sampleParse 4 () (some { store := 0, index := 0, bits := some [1, 7, 5] })).1 = protoSchema 4 (some (sampleParse [1, 7, 5])) :=
  ⟨fun _ _ => by rw [textInfer_eq]; simp, rfl⟩

end Mlio
