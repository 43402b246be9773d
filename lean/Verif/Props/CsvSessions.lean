import Verif.Props.CsvColumns
import Verif.Props.Sessions

/-! # C89: sessions with a CSV reader that infers its schema -/

namespace Mlio
open Spec Machine

variable {V : Type}

theorem csvInfer_some (F64 : FloatLib) (o : CsvOpts) (b : Nat) (names : List Bytes) (mem : CsvState) (x : Inst) :
    (csvInfer F64 o b names mem (some x)).1 ≠ .ok none := by
  unfold csvInfer
  generalize (if mem.names.isEmpty then { mem with names := names } else mem) = s
  simp only [Option.map_some]
  unfold inferSchema
  rw [if_neg (by simp)]
  split
  · simp
  · simp
  · split
    · simp
    · simp
    · split
      · simp
      · simp
      · split <;> simp

/-- **C89**, partial, CSV: a program that makes a CSV reader over data stores with tables and then calls `read_schema`, `read_example`,
`peek_example` and `reset` as it likes, in every state that these calls and any schedule of the threads lead to.  If the first attempt
gave a schema: with the names that are given, or in the header of the first table, or else numbers, and the types that are given, or
found in the first row of an epoch, it has one attribute for every selected column; and the calls return the deliverable
batches of the selected data rows, each value parsed by the type of its column, in the tensor of its attribute, at its place;
they fail only because of a bad row, if that is to be an error.

Missing: what `CsvStore.Good` and `Plainly` leave out, see C67 and C74; `pad_warn`, see C24; a first table without header row, see C35;
equal names, see C34; when the first attempt to infer the schema has failed, see C36. -/
theorem C89_csv_schema_partial (z : Inflater) (w : World) (R : Rng) (hR : R.Lawful) (o : ReadOptions) (p : CsvParams) (co : CsvOpts)
    (hp : Plainly p co) (stores : List CsvStore) (hg : ∀ t ∈ stores, t.Good z w p)
    (hhead : co.columnNames = [] → ∀ h t, co.headerRow = some h → stores.head? = some t → h < t.table.values.length)
    (hnd : (knownNames co (stores.map fun t => t.table)).Nodup)
    (F64 : FloatLib) (limit : FieldLimit) (warnBad : Bool) (bad : BadHandling) (parse : DataType → Bytes → Option V) (zero : DataType → V)
    (dflt : V) (dec : Batch Inst → Except Err (Option (CsvExample V)))
    (hlen : (tableRows co (stores.map fun t => t.table)).length < 2 ^ 64 - 1)
    (b : Nat) (hb : 0 < b) (l : LastHandling) (hl : l ≠ .padWarn) (P Q : Nat) (hP : 0 < P) (hQ : 0 < Q) :
    ∃ fuel0, ∀ fuel, fuel0 ≤ fuel → ∀ (r : Machine Inst) (n : Nat),
      makeInstanceReader R o (csvStoreCore unicodeCodec z w p co none fuel (stores.map fun t => t.store)) = some r.base →
      ∀ infer, infer = csvInfer F64 co b (openedNames co (lineMachine unicodeCodec (storeSrc z) (csvDecode p) fuel)
        (stores.map fun t => t.store.openWith z w (openLines unicodeCodec (storeSrc z) fuel none)) (n + 1)) →
      ∀ s : WState b l r (CsvExample V) Schema CsvState, WReachable P Q instanceBytes dec infer (CsvState.fresh co) s →
      (∀ sc rest, s.told = .ok (some sc) :: rest → ∃ first names types,
        EpochOrder o (selected o (tableRows co (stores.map fun t => t.table))) first ∧
        names = namesFor co (knownNames co (stores.map fun t => t.table)) first.head? ∧ types = typesFor F64 co names first.head? ∧
        sc.attrs = (used co names types).map (columnAttr b) ∧
        (CsvDecodes co.tok limit warnBad bad (csvColumns parse zero s.mem) dflt dec →
          ∃ rows, EpochOrder o (selected o (tableRows co (stores.map fun t => t.table))) rows ∧
            BatchSession (HoldsRows co.tok.maxField limit (columnsFor parse zero co names types))
              (goodBatch co.tok.maxField limit (columnsFor parse zero co names types)) bad (batches b l rows) s.d.hist)) ∧
      (knownNames co (stores.map fun t => t.table) ≠ [] → OverridesMatch co (knownNames co (stores.map fun t => t.table)) →
        (∀ row ∈ tableRows co (stores.map fun t => t.table), row.length = (knownNames co (stores.map fun t => t.table)).length) →
        ∀ t ∈ s.told, ∃ sc, t = .ok (some sc)) ∧
      (∀ x y, .ok (some x) ∈ s.told → .ok (some y) ∈ s.told → x = y) ∧ s.race = false ∧
      (s.d.p.consumer ≠ .idle → ∃ a s', wstep P Q instanceBytes dec infer (.dact (.sys a)) s = some s') := by
  obtain ⟨files, h1, h2, h3⟩ := csvStores_opened stores hg
  have hhead' : co.columnNames = [] → ∀ h f, co.headerRow = some h → files.head? = some f → h < f.table.values.length := by
    intro hc h f hh hf
    cases stores with
    | nil =>
      cases files with
      | nil => cases hf
      | cons g gs => cases h2
    | cons t ts =>
      cases files with
      | nil => cases hf
      | cons g gs =>
        simp only [List.map_cons, List.cons.injEq] at h2
        simp only [List.head?_cons, Option.some.injEq] at hf
        subst hf
        rw [h2.1]
        exact hhead hc h t hh rfl
  rw [← h2, ← datasetRows_tables] at hlen ⊢
  rw [← h2] at hnd
  obtain ⟨fuel0, hy⟩ := csvCore_renews hp files h1 (by
    intro _ h f hh hf
    by_cases hc : co.columnNames = []
    · exact .inr (hhead' hc h f hh hf)
    · exact .inl hc)
  refine ⟨fuel0 + ((files.map fun f => (f.table.bytes p.delimiter p.quote).length).sum +
      (files.map fun f => f.file.bytes.length).sum + 5), fun fuel hf r n hm infer hinfer s hs => ?_⟩
  obtain ⟨rs, g1, g2⟩ := csvFiles_hold hp files h1 fuel (by omega)
  have hreaders : (stores.map fun t => t.store.openWith z w (openLines unicodeCodec (storeSrc z) fuel none)) = rs.map Res.ok := by
    rw [← g1, ← h3 fuel, List.map_map]
    rfl
  have hnames := (congrArg (fun l => openedNames co (lineMachine unicodeCodec (storeSrc z) (csvDecode p) fuel) l (n + 1)) hreaders).trans
    (openedNames_known hp files h1 hhead' (lineMachine unicodeCodec (storeSrc z) (csvDecode p) fuel) rs g2 n)
  have hinfer := hinfer.trans (congrArg (csvInfer F64 co b) hnames)
  have hcore : csvStoreCore unicodeCodec z w p co none fuel (stores.map fun t => t.store) =
      csvCore unicodeCodec (storeSrc z) p co none fuel (files.map fun f => f.file.stream) := by
    unfold csvStoreCore csvCore
    rw [h3]
  rw [hcore] at hm
  obtain ⟨f1, f2⟩ := dataBytes_fields hp files h1
  have hbits := rowInstances_bits (dataBytes p co files)
  have hflat : (rowInstances (dataBytes p co files)).map (fun i => rowFields co.tok (i.bits.getD [])) =
      datasetRows co files := by
    rw [← f1, ← hbits, List.map_map]
    rfl
  have hlen' : (rowInstances (dataBytes p co files)).length < 2 ^ 64 - 1 := by
    rw [← List.length_map (fun i : Inst => rowFields co.tok (i.bits.getD [])), hflat]; exact hlen
  obtain ⟨ys, k1, k2, k3, _, _, _, k7, k8, k9, k10, k11⟩ := dataset_session R hR o _ _ (hy fuel (by omega)) hlen' hb hl hm hP hQ
    (by rw [hinfer]; exact csvInfer_some F64 co b _) _ s hs
  have order : ∀ zs, EpochOrder o (selected o (rowInstances (dataBytes p co files))) zs →
      EpochOrder o (selected o (datasetRows co files)) (zs.map fun i => rowFields co.tok (i.bits.getD [])) := by
    intro zs hz
    rw [← hflat, selected_map]
    exact epochOrder_map _ o _ _ hz
  have hmem : ∀ zs, EpochOrder o (selected o (rowInstances (dataBytes p co files))) zs → ∀ i ∈ zs, tokenize co.tok (i.bits.getD []) =
        ((rowFields co.tok (i.bits.getD [])).map (cutField co.tok.maxField), .ok ()) := by
    intro zs hz i hi
    have hi := selected_mem o _ i (epochOrder_mem o _ _ hz i hi)
    refine f2 _ ?_
    rw [← hbits]
    exact List.mem_map.2 ⟨i, hi, rfl⟩
  have hst : ∃ s0 : CsvState, (if (CsvState.fresh co).names.isEmpty then
        { CsvState.fresh co with names := knownNames co (files.map fun f => f.table) } else CsvState.fresh co) = s0 ∧
      s0.names = knownNames co (files.map fun f => f.table) ∧ s0.types = [] ∧ s0.ignores = [] ∧ s0.parsers = [] := by
    refine ⟨_, rfl, ?_, ?_, ?_, ?_⟩
    · by_cases hc : co.columnNames = []
      · simp [CsvState.fresh, hc]
      · simp [CsvState.fresh, hc, knownNames]
    all_goals split <;> rfl
  obtain ⟨s0, e0, e1, e2, e3, e4⟩ := hst
  have hinfer0 : ∀ i, infer (CsvState.fresh co) i = inferSchema F64 co b s0 (i.map fun i => i.bits.getD []) := by
    intro i
    rw [hinfer]
    unfold csvInfer
    rw [e0]
  refine ⟨?_, ?_, k7, k8, k9⟩
  · intro sc rest hsc
    obtain ⟨zs, hz, hi1, hi2⟩ := k10 _ rest hsc
    have hi : infer (CsvState.fresh co) zs.head? = (.ok (some sc), s.mem) := Prod.ext hi1 (hi2 sc rfl)
    rw [hinfer0] at hi
    obtain ⟨c1, c2, c3⟩ := C34_columns_types_partial F64 co b s0 s.mem _ sc e2 e3 e4 (by rw [e1]; exact hnd)
      ((zs.map fun i => rowFields co.tok (i.bits.getD [])).head?) (by
        rw [List.head?_map, Option.map_map, Option.map_map]
        cases zs with
        | nil => rfl
        | cons i is => simp [hmem _ hz i (by simp)]) hi parse zero
    rw [e1] at c1
    refine ⟨_, _, _, order zs hz, rfl, rfl, ?_, ?_⟩
    · rw [c3, c1]
    · intro hdec
      refine ⟨_, order ys k1, ?_⟩
      rw [c2, c1] at hdec
      rw [batches_map]
      exact batchSession_of (fun q => q.map fun i => rowFields co.tok (i.bits.getD [])) _ _ _ _ (fun q hq =>
        csvDecodes_batch hdec q (batches_fit b hb l ys q hq).1 (fun i hi => hmem ys k1 i (batches_mem b hb l ys q hq i hi))) k2 k3
  · intro hne hm hrows
    refine k11 fun t ht => ?_
    obtain ⟨rest, hrest⟩ : ∃ rest, s.told = t :: rest := by
      cases htold : s.told with
      | nil => rw [htold] at ht; cases ht
      | cons y ys => rw [htold] at ht; cases ht; exact ⟨ys, rfl⟩
    obtain ⟨zs, hz, hi1, _⟩ := k10 t rest hrest
    rw [hinfer0] at hi1
    rw [← e1] at hne hm hnd hrows
    obtain ⟨sc, h⟩ := inferSchema_succeeds F64 co b s0 (zs.head?.map fun i => i.bits.getD []) hne e2 hnd hm (by
      intro row hrow
      cases zs with
      | nil => cases hrow
      | cons i is =>
        cases hrow
        have ht := hmem _ hz i (by simp)
        refine ⟨by rw [ht], ?_⟩
        rw [ht, List.length_map]
        refine hrows _ ?_
        rw [← hflat]
        exact List.mem_map.2 ⟨i, selected_mem o _ i (epochOrder_mem o _ _ hz i (by simp)), rfl⟩)
    exact ⟨sc, by rw [← hi1, h]⟩

/-- The hypotheses of `C89_csv_schema_partial` hold for the sample (for those about the stores see `C74_csv_partial`). -/
example (fuel : Nat) : Plainly sampleParams {} ∧
    (∀ h t, ({} : CsvOpts).headerRow = some h → sampleCsvStores.head? = some t → h < t.table.values.length) ∧
    knownNames {} (sampleCsvStores.map fun t => t.table) = [[97], [98]] ∧ ([[97], [98]] : List Bytes).Nodup ∧
    OverridesMatch {} [[97], [98]] ∧ (∀ row ∈ tableRows {} (sampleCsvStores.map fun t => t.table), row.length = 2) ∧
    outcome (csvInfer noFloat {} 8 [[97], [98]] (CsvState.fresh {}) (some ⟨0, 0, some [49, 44, 50]⟩)).1 =
      .ok (some [([97], .int64), ([98], .int64)]) ∧
    (∃ dec, CsvDecodes {} .treatAsBad false .pad (csvColumns (fun _ b => if b.length = 1 then some b.length else none) (fun _ => 0)
      (csvInfer noFloat {} 8 [[97], [98]] (CsvState.fresh {}) (some ⟨0, 0, some [49, 44, 50]⟩)).2) 0 dec) ∧
    ∃ r : Machine Inst, makeInstanceReader trivialRng {}
        (csvStoreCore unicodeCodec toyInflater storeWorld sampleParams {} none fuel (sampleCsvStores.map fun t => t.store)) = some r.base := by
  refine ⟨⟨rfl, rfl, by decide, by decide, by decide, by decide⟩, ?_, by decide, by decide, by decide, by decide, by decide,
    csvDecodes_exists _ _ _ _ _ _ (fun _ => rfl), _, rfl⟩
  intro h t hh ht
  cases hh
  cases ht
  decide

end Mlio
