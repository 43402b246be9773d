import Verif.Proofs.CsvLive
import Verif.Props.RetryStores
import Verif.Props.RetryText

/-!
# C103: reading CSV again after an error

A CSV reader changes its members while it opens data stores, see `csvLive`.
-/

namespace Mlio
open Spec

/-- The members of the CSV reader that the opening of data stores changes do not matter to what is read, in whatever order instances are read (`true`) and the reader is
reset (`false`), if all header rows can be read: `csvCoreOver`, which the other theorems about CSV are about, has the same outcomes as `csvLive`. -/
theorem csvLive_script {codec : String → Codec} {m : SrcClass} {p : CsvParams} {o : CsvOpts} {fuel : Nat}
    {readers : List (Res (LineReader codec m fuel))} (h : ∀ r, .ok r ∈ readers → Tidy o (lineMachine codec m (csvDecode p) fuel) r) :
    ∀ (as : List Bool) (s : (csvCoreOver codec m p o fuel readers).σ),
      (csvLive o (lineMachine codec m (csvDecode p) fuel) fuel readers).script as
          (liveState o (lineMachine codec m (csvDecode p) fuel) readers s) =
        (csvCoreOver codec m p o fuel readers).script as s
  | [], _ => rfl
  | true :: as, s => by
    have h1 := live_read (failsClean h) s
    simp only [Machine.script]
    rw [h1]
    exact congrArg (_ :: ·) (csvLive_script h as _)
  | false :: as, s => by
    simp only [Machine.script]
    rw [live_reset]
    exact csvLive_script h as _

theorem csvLive_outs {o : CsvOpts} {rm : Machine Record} {fuel : Nat} {readers : List (Res rm.σ)} (h : ∀ r, .ok r ∈ readers → Tidy o rm r)
    (k0 : CsvState) : ∀ (n : Nat) (c : CoreState rm.σ),
      (csvLive o rm fuel readers).outs n (c, (openAll o rm k0 (readers.take c.iter)).2) =
        (coreReader rm (openFrom o rm readers k0) fuel).outs n c
  | 0, _ => rfl
  | n + 1, c => by
    have h1 : (csvLive o rm fuel readers).read (c, (openAll o rm k0 (readers.take c.iter)).2) = _ :=
      coreReadF_eq (csvOpener_opens (failsClean h) k0) fuel c
    show _ :: _ = _ :: _
    rw [h1]
    exact congrArg (_ :: ·) (csvLive_outs h k0 n _)

theorem csvLive_lasts {o : CsvOpts} {rm : Machine Record} {fuel : Nat} {readers : List (Res rm.σ)} (h : ∀ r, .ok r ∈ readers → Tidy o rm r)
    {e : Err} (he : e ≠ .diverges) : LastsAlways (csvLive o rm fuel readers) e := by
  have key : ∀ k0, LastsAlways (coreReader rm (openFrom o rm readers k0) fuel) e := fun k0 =>
    core_sticky (fun i r hr => by
      obtain ⟨xs, t, hy⟩ := openFrom_yields h k0 i r hr
      exact yields_sticky hy) he fuel
  have hJ : ∃ J : CsvState → CoreState rm.σ → Prop, ∀ k0, J k0 .fresh ∧
      Lasts (coreReader rm (openFrom o rm readers k0) fuel) (.err e) (J k0) :=
    ⟨fun k0 => Classical.choose (key k0), fun k0 =>
      ⟨(Classical.choose_spec (key k0)).1 _ (.inl rfl), (Classical.choose_spec (key k0)).2⟩⟩
  obtain ⟨J, hJ⟩ := hJ
  have hread : ∀ k0 c, (csvLive o rm fuel readers).read (c, (openAll o rm k0 (readers.take c.iter)).2) =
      lift (fun i => (openAll o rm k0 (readers.take i)).2) (coreRead rm (openFrom o rm readers k0) fuel c) := fun k0 c =>
    coreReadF_eq (csvOpener_opens (failsClean h) k0) fuel c
  refine ⟨fun s => ∃ k0, s.2 = (openAll o rm k0 (readers.take s.1.iter)).2 ∧ J k0 s.1, ?_, ?_, ?_⟩
  · rintro s (rfl | ⟨u, rfl⟩)
    · exact ⟨CsvState.fresh o, rfl, (hJ _).1⟩
    · exact ⟨u.2.reset, rfl, (hJ _).1⟩
  · rintro ⟨c, k⟩ ⟨k0, hk, hc⟩
    simp only at hk hc
    subst hk
    rw [hread]
    exact ⟨k0, rfl, (hJ k0).2.keep c hc⟩
  · rintro ⟨c, k⟩ ⟨k0, hk, hc⟩ ht
    simp only at hk hc
    subst hk
    rw [hread] at ht ⊢
    intro n
    refine (csvLive_outs h k0 n _).trans ?_
    exact (hJ k0).2.last c hc ht n

theorem anyCsv_tidy {z : Inflater} {w : World} {p : CsvParams} {o : CsvOpts} (hp : Plainly p o) {t : CsvStore} (h : AnyCsvStore z w p t) :
    ∃ fuel0, ∀ fuel, fuel0 ≤ fuel → ∀ r, Store.openWith z w (openLines unicodeCodec (storeSrc z) fuel none) t.store = .ok r →
      Tidy o (lineMachine unicodeCodec (storeSrc z) (csvDecode p) fuel) r := by
  have hheader : t.table.Good p → ∀ k h, o.headerRow = some h →
      HeaderOk o h (((rowLines p.delimiter p.quote t.table).take k).map fun b => (⟨0, b⟩ : Record)) := by
    intro hs k h _ hdr hh
    rw [List.getElem?_map] at hh
    cases hrow : ((rowLines p.delimiter p.quote t.table).take k)[h]? with
    | none => rw [hrow] at hh; cases hh
    | some row =>
      rw [hrow] at hh
      cases hh
      rw [(sheet_fields hp hs).2 row (List.mem_of_mem_take (List.mem_of_getElem? hrow))]
  have fails : t.table.Good p → ∀ {e : Err}, LinesFail z w t.store p (rowLines p.delimiter p.quote t.table) e → ∃ fuel0, ∀ fuel, fuel0 ≤ fuel → ∀ r,
      Store.openWith z w (openLines unicodeCodec (storeSrc z) fuel none) t.store = .ok r →
      Tidy o (lineMachine unicodeCodec (storeSrc z) (csvDecode p) fuel) r := by
    intro hs e ⟨s, fuel0, h1, h2⟩
    refine ⟨fuel0, fun fuel hf r hr => ?_⟩
    simp only [Store.openWith, h1] at hr
    rcases h2 fuel hf with h3 | ⟨r', k, h3, _, h4⟩
    · rw [h3] at hr; cases hr
    · rw [h3] at hr; cases hr; exact ⟨_, _, h4, nofun, hheader hs k⟩
  rcases h with h | h | h | h
  · obtain ⟨f, e1, _, e2⟩ := store_stored h.stored
    refine ⟨(t.table.bytes p.delimiter p.quote).length + f.bytes.length + 5, fun fuel hf r hr => ?_⟩
    obtain ⟨r', h1, h2⟩ := stored_rows e2 p (crlfSafe_ok hp _) (sheet_linesOk hp h.sheet).markFree (sheet_rowsOf hp h.sheet)
      fuel (by omega) (by omega)
    simp only [Store.openWith, e1, h1] at hr
    cases hr
    refine ⟨_, _, h2, nofun, ?_⟩
    have := hheader h.sheet (rowLines p.delimiter p.quote t.table).length
    rwa [List.take_length] at this
  · exact fails h.sheet (cut_lines h.stored p (crlfSafe_ok hp _) (sheet_linesOk hp h.sheet).markFree (sheet_rowsOf hp h.sheet))
  · exact fails h.sheet (garbled_lines h.stored p (crlfSafe_ok hp _) (sheet_linesOk hp h.sheet).markFree (sheet_rowsOf hp h.sheet))
  · obtain ⟨e, _, hopen⟩ := cannotOpen_err (z := z) h
    exact ⟨0, fun fuel _ r hr => nomatch (hopen _).symm.trans hr⟩

theorem csv_stores_tidy {z : Inflater} {w : World} {p : CsvParams} {o : CsvOpts} (hp : Plainly p o) (stores : List CsvStore)
    (hg : ∀ t ∈ stores, AnyCsvStore z w p t) :
    ∃ fuel0, ∀ fuel, fuel0 ≤ fuel → ∀ r,
      .ok r ∈ (stores.map fun t => t.store).map (Store.openWith z w (openLines unicodeCodec (storeSrc z) fuel none)) →
      Tidy o (lineMachine unicodeCodec (storeSrc z) (csvDecode p) fuel) r := by
  obtain ⟨f0, hf0⟩ := all_fuel stores (fun t ht => anyCsv_tidy hp (hg t ht))
  refine ⟨f0, fun fuel hf r hr => ?_⟩
  rw [List.map_map] at hr
  obtain ⟨t, ht, e⟩ := List.mem_map.1 hr
  exact hf0 fuel hf t ht r e

/-- **C103** for CSV in data stores, partial: whichever of the stores are in order, cut short, not well formed or cannot be opened, once reading an instance
has failed in an epoch, it fails in the same way in all the rest of the epoch, in every epoch; although each attempt to open a store may change the members of the
reader.

Missing: as for `C103_instances_partial`; header rows that cannot be read, see `C103_csv_header_violated`. -/
theorem C103_csv_stores_partial (z : Inflater) (w : World) (p : CsvParams) (co : CsvOpts) (hp : Plainly p co) (stores : List CsvStore)
    (hg : ∀ t ∈ stores, AnyCsvStore z w p t) (R : Rng) (o : ReadOptions) (hs : o.sampleRatio = none) (hn : o.toRead ≠ some 0) :
    ∃ fuel0, ∀ fuel, fuel0 ≤ fuel → ∀ r,
      makeInstanceReader R o (csvLive co (lineMachine unicodeCodec (storeSrc z) (csvDecode p) fuel) fuel
        ((stores.map fun t => t.store).map (Store.openWith z w (openLines unicodeCodec (storeSrc z) fuel none)))) = some r →
      ∀ e, e ≠ .diverges → Sticky r r.init e ∧ ∀ u, Sticky r (r.reset u) e := by
  obtain ⟨f0, hf0⟩ := csv_stores_tidy hp stores hg
  refine ⟨f0, fun fuel hf r hm e he => ?_⟩
  obtain ⟨J, h1, h2⟩ := make_lasts R o _ r (csvLive_lasts (hf0 fuel hf) he) hs hn hm
  exact ⟨fun i j => h2.outs i j _ (h1 _ (.inl rfl)), fun u i j => h2.outs i j _ (h1 _ (.inr ⟨u, rfl⟩))⟩

/-- **C103** for the data reader of CSV in data stores, partial: if the first instance cannot be read (nor, if the program resets the reader, the first one of any
other epoch), then all calls of `read_schema`, `read_example` and `peek_example` fail with this error, however many there are and whatever the schedule; none
returns an example or says that the data are at their end.

Missing: as for `C103_csv_stores_partial`; that the first instances of the other epochs cannot be read either. -/
theorem C103_csv_calls_partial {ε S ι : Type} (z : Inflater) (w : World) (p : CsvParams) (co : CsvOpts) (hp : Plainly p co) (stores : List CsvStore)
    (hg : ∀ t ∈ stores, AnyCsvStore z w p t) (R : Rng) (o : ReadOptions) (hs : o.sampleRatio = none) (hn : o.toRead ≠ some 0) :
    ∃ fuel0, ∀ fuel, fuel0 ≤ fuel → ∀ r : Machine Inst,
      makeInstanceReader R o (csvLive co (lineMachine unicodeCodec (storeSrc z) (csvDecode p) fuel) fuel
        ((stores.map fun t => t.store).map (Store.openWith z w (openLines unicodeCodec (storeSrc z) fuel none)))) = some r.base →
      ∀ e, e ≠ .diverges → (r.read r.init).1 = .err e →
      ∀ as : List WAct, (.dact .reset ∈ as → ∀ u, (r.read (r.reset u)).1 = .err e) →
      ∀ (b : Nat) (l : LastHandling) (P Q : Nat) (size : Inst → Nat) (dec : Batch Inst → Except Err (Option ε)) (infer : Infer Inst S ι) (mem : ι)
        (v : WState b l r ε S ι), wrun P Q size dec infer as (WState.init b l r mem) = some v →
      v.told = List.replicate (callsOf as) (.err e) ∧ v.d.hist = [] ∧ v.schema = none := by
  obtain ⟨f0, hf0⟩ := csv_stores_tidy hp stores hg
  refine ⟨f0, fun fuel hf r hm e he hr as hrr b l P Q size dec infer mem v hv => ?_⟩
  obtain ⟨J, h1, h2⟩ := lasts_of_base (make_lasts R o _ r.base (csvLive_lasts (hf0 fuel hf) he) hs hn hm)
  have h0 : r.Yields r.init [] (.err e) := h2.dead (h1 _ (.inl rfl)) hr
  obtain ⟨k1, k2⟩ := noStart_run as (fun hm u => h2.dead (h1 _ (.inr ⟨u, rfl⟩)) (hrr hm u)) (w := WState.init b l r mem)
    ⟨rfl, rfl, rfl, rfl, rfl, h0, rfl⟩ hv
  refine ⟨?_, k1.hist, k1.schema⟩
  rw [k2]
  show [] ++ _ = _
  rw [List.nil_append]
  congr 2

/-- **C103**, **C74**, **C75** for CSV: over such stores the model in which the data stores of an epoch are opened all at once, which most theorems about CSV are about, and
the one in which they are opened when needed, and again after an error, have the same outcomes, whatever the sequence of reads and resets. -/
theorem C103_csv_same (z : Inflater) (w : World) (p : CsvParams) (co : CsvOpts) (hp : Plainly p co) (stores : List CsvStore)
    (hg : ∀ t ∈ stores, AnyCsvStore z w p t) :
    ∃ fuel0, ∀ fuel, fuel0 ≤ fuel → ∀ as : List Bool,
      let live := csvLive co (lineMachine unicodeCodec (storeSrc z) (csvDecode p) fuel) fuel
        ((stores.map fun t => t.store).map (Store.openWith z w (openLines unicodeCodec (storeSrc z) fuel none)))
      let core := csvStoreCore unicodeCodec z w p co none fuel (stores.map fun t => t.store)
      live.script as live.init = core.script as core.init := by
  obtain ⟨f0, hf0⟩ := csv_stores_tidy hp stores hg
  exact ⟨f0, fun fuel hf as => csvLive_script (hf0 fuel hf) as (.fresh, [])⟩

/-- **C103** is violated by header rows that cannot be read: if the header row of the first store is not well formed behind some names, the first call fails; the
next call takes these names for the names of all columns, skips the header row, and returns the first row of data. -/
theorem C103_csv_header_violated (o : CsvOpts) (rm : Machine Record) (r : rm.σ) (hdr row : Record) (xs : List Record) (t : Res (Option Record))
    (hy : rm.Yields r (hdr :: row :: xs) t) (hk : row.kind = 0) (ho : o.headerRow = some 0) (hn : o.columnNames = [])
    (fs : List (Bytes × Bool)) (hf : fs ≠ []) (ht : tokenize o.tok hdr.payload = (fs, .err .corruptRecord)) (more : List (Res rm.σ)) (fuel : Nat) :
    let m := csvLive o rm fuel (.ok r :: more)
    m.outs 2 m.init = [.err .schemaError, .ok (some ⟨0, 0, some row.payload⟩)] ∧
    (m.read (m.read m.init).2).2.2.names = fs.map fun f => prefixed o f.1 := by
  obtain ⟨r1, e1, hy1⟩ := hy.read_cons
  obtain ⟨r2, e2, hy2⟩ := hy1.read_cons
  have n1 : makeRecordReader o rm (CsvState.fresh o) (.ok r) =
      (.err .schemaError, { CsvState.fresh o with names := fs.map fun f => prefixed o f.1 }) := by
    simp [makeRecordReader, ho, CsvState.fresh, hn, readNames, skipToHeader, e1, namesFromRow, ht, schemaErr]
  have hne : (fs.map fun f => prefixed o f.1).isEmpty = false := by
    cases fs with
    | nil => exact absurd rfl hf
    | cons f fs => rfl
  have n2 : makeRecordReader o rm { CsvState.fresh o with names := fs.map fun f => prefixed o f.1 } (.ok r) =
      (.ok r1, { CsvState.fresh o with names := fs.map (fun f => prefixed o f.1), readHeader := false }) := by
    simp only [makeRecordReader, ho, hne, Bool.false_eq_true, if_false, CsvState.fresh, Bool.true_or, if_true, discardHeader, skipToHeader, e1]
  have k1 : (csvLive o rm fuel (.ok r :: more)).read (csvLive o rm fuel (.ok r :: more)).init =
      (.err .schemaError, ({ CoreState.fresh with store := some 0 }, { CsvState.fresh o with names := fs.map fun f => prefixed o f.1 })) := by
    simp [csvLive, coreReadF, readPayloadF, CoreState.fresh, readRecordF, initNextF, csvOpener, n1, coreHandle, Err.translated]
  have k2 : (csvLive o rm fuel (.ok r :: more)).read
      ({ CoreState.fresh with store := some 0 }, { CsvState.fresh o with names := fs.map fun f => prefixed o f.1 }) =
      (.ok (some ⟨0, 0, some row.payload⟩), (⟨1, some 0, some r2, 1, 1, false⟩,
        { CsvState.fresh o with names := fs.map (fun f => prefixed o f.1), readHeader := false })) := by
    simp [csvLive, coreReadF, readPayloadF, CoreState.fresh, readRecordF, initNextF, csvOpener, n2, recLoopF, e2, hk]
  refine ⟨?_, ?_⟩
  · show [_, _] = _
    rw [k1, k2]
  · rw [k1, k2]

-- The hypotheses are met by the header row `a,"b` of the file with this row and the row `1`: its error is not seen again, and `1` becomes the value of the column `a`.
example : (memoryMachine (csvDecode {})).Yields ⟨[97, 44, 34, 98, 10, 49, 10], []⟩ [⟨0, [97, 44, 34, 98]⟩, ⟨0, [49]⟩] (.ok none) ∧
    tokenize ({} : CsvOpts).tok [97, 44, 34, 98] = ([([97], false)], .err .corruptRecord) ∧
    let m := csvLive {} (memoryMachine (csvDecode {})) 1 [.ok ⟨[97, 44, 34, 98, 10, 49, 10], []⟩]
    m.outs 3 m.init = [.err .schemaError, .ok (some ⟨0, 0, some [49]⟩), .ok none] ∧ ¬ Sticky m m.init .schemaError := by
  refine ⟨?_, by decide +kernel, by decide +kernel, fun h => absurd (h 0 1 (by decide +kernel) (by decide)) (by decide +kernel)⟩
  have hend (n : Nat) : (memoryMachine (csvDecode {})).outs n ⟨[], []⟩ = List.replicate n (.ok none) := by
    induction n with
    | zero => rfl
    | succ n ih => exact congrArg (Res.ok none :: ·) ih
  refine Machine.yields_cons.2 ⟨by decide +kernel, Machine.yields_cons.2 ⟨by decide +kernel, fun n => ?_⟩⟩
  rw [show ((memoryMachine (csvDecode {})).read ((memoryMachine (csvDecode {})).read ⟨[97, 44, 34, 98, 10, 49, 10], []⟩).2).2 = ⟨[], []⟩ from rfl, hend]
  simp

/-- A store of CSV that does not exist. -/
def sampleMissingCsv : CsvStore := ⟨⟨[], .row []⟩, .utf8, .file [120] true .none⟩

-- The hypotheses of `C103_csv_stores_partial` and `C103_csv_same` are met: stores in order, one that was cut, one that is not well formed and one that does not exist.
example : Plainly sampleParams {} ∧
    ∀ t ∈ sampleCsvStores ++ [sampleCutCsv, sampleGarbledCsv, sampleMissingCsv], AnyCsvStore toyInflater storeWorld sampleParams t := by
  refine ⟨⟨rfl, rfl, by decide, by decide, by decide, by decide⟩, fun t ht => ?_⟩
  simp only [List.mem_append, List.mem_cons, List.not_mem_nil, or_false] at ht
  rcases ht with h | rfl | rfl | rfl
  · exact .inl (sampleCsvStores_good t h)
  · exact .inr (.inl (sampleCutCsv_cut _))
  · exact .inr (.inr (.inl (sampleGarbledCsv_garbled _)))
  · exact .inr (.inr (.inr sample_missing))

-- The hypotheses of `C103_csv_calls_partial` are met: a program that reads a store that does not exist, with resets.
example (fuel : Nat) : ∃ r : Machine Inst, ∃ e, e ≠ Err.diverges ∧
    makeInstanceReader trivialRng {} (csvLive {} (lineMachine unicodeCodec (storeSrc toyInflater) (csvDecode sampleParams) fuel) fuel
      (([sampleMissingCsv].map fun t => t.store).map
        (Store.openWith toyInflater storeWorld (openLines unicodeCodec (storeSrc toyInflater) fuel none)))) = some r.base ∧
    (r.read r.init).1 = .err e ∧ ∀ u, (r.read (r.reset u)).1 = .err e := by
  show ∃ r : Machine Inst, ∃ e, e ≠ Err.diverges ∧
    makeInstanceReader trivialRng {} (csvLive {} (lineMachine unicodeCodec (storeSrc toyInflater) (csvDecode sampleParams) fuel) fuel [.err .systemError]) =
      some r.base ∧ (r.read r.init).1 = .err e ∧ ∀ u, (r.read (r.reset u)).1 = .err e
  refine ⟨_, .dataReader, by decide, rfl, ?_, fun u => ?_⟩
  · simp [csvLive, coreReadF, readPayloadF, CoreState.fresh, readRecordF, initNextF, csvOpener, makeRecordReader, coreHandle, Err.translated]
  · simp [csvLive, coreReadF, readPayloadF, CoreState.fresh, readRecordF, initNextF, csvOpener, makeRecordReader, coreHandle, Err.translated]

end Mlio
