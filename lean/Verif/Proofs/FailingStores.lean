import Verif.Proofs.FailingEpochs
import Verif.Props.StoreReaders
import Verif.Spec.FailingStores

/-!
# Data stores that cannot be read: proofs
-/

namespace Mlio
open Spec

/-! ## The core instance reader -/

/-- Stores up to one that cannot be read to its end. -/
theorem core_breaks (rm : Machine Record) (stores : List (Res (Option rm.σ))) (cs : List Content) (hf : FitsAll rm stores cs)
    (e : Err) (he : e.translated = true) (hstop : (items 0 cs).2 = .fail e) (fuel : Nat) (hfuel : (items 0 cs).1.length < fuel)
    (is : List (Nat × Option Bytes)) (en : End) (ha : Assembles (.fail e) (items 0 cs).1 is en) :
    (coreReader rm stores fuel).Breaks (number [] is) .dataReader := by
  have hen : en = .fail e ∨ en = .corruptSplit := by
    have key : ∀ stop, stop = .fail e → ∀ its is en, Assembles stop its is en → en = .fail e ∨ en = .corruptSplit := by
      intro stop hs its is en h
      induction h with
      | eof h => rw [h] at hs; cases hs
      | fail e' h => rw [h] at hs; cases hs; exact Or.inl rfl
      | whole _ ih => exact ih
      | complete _ ih => exact ih
      | split _ _ ih => exact ih
      | badStart _ _ => exact Or.inr rfl
      | badNext _ _ => exact Or.inr rfl
      | cut _ h => rw [h] at hs; cases hs
      | cutFail e' _ h => rw [h] at hs; cases hs; exact Or.inl rfl
    exact key _ rfl _ _ _ ha
  have hy := C04_split_records_partial rm stores cs hf fuel hfuel is en (by rw [hstop]; exact ha)
    (by rcases hen with h | h <;> rw [h] <;> simp)
  have : (coreReader rm stores fuel).Yields (coreReader rm stores fuel).init (number [] is) (.err .dataReader) := by
    rcases hen with rfl | rfl
    · simpa only [he, if_true] using hy
    · exact hy
  exact ⟨this.readsTo, fun _ => this.readsTo⟩

theorem fitsAll_before (rm : Machine Record) (os : List (Res (Option rm.σ))) (cs : List Content) (hlen : os.length = cs.length)
    (hfit : ∀ (i : Nat) o c, os[i]? = some o → cs[i]? = some c → Fits rm o c) (x : Res (Option rm.σ)) (c : Content) (hx : Fits rm x c)
    (hs : c.stops = true) (more : List (Res (Option rm.σ))) : FitsAll rm (os ++ x :: more) (cs ++ [c]) := by
  refine ⟨?_, ?_⟩
  · cases more with
    | nil => left; simp [hlen]
    | cons => right; exact ⟨by simp [hlen], c, by simp, hs⟩
  · intro i o c' ho hc
    by_cases hlt : i < os.length
    · rw [List.getElem?_append_left hlt] at ho
      rw [List.getElem?_append_left (by omega)] at hc
      exact hfit i o c' ho hc
    · rw [List.getElem?_append_right (by omega)] at hc
      have hie : i = os.length := by
        have := (List.getElem?_eq_some_iff.1 hc).1
        simp only [List.length_singleton] at this
        omega
      subst hie
      rw [List.getElem?_append_right (by omega)] at ho
      simp only [hlen, Nat.sub_self, List.getElem?_cons_zero, Option.some.injEq] at ho hc
      subst ho hc
      exact hx

theorem items_append (cs ds : List Content) : ∀ k, (items k cs).2 = .eof →
    items k (cs ++ ds) = ((items k cs).1 ++ (items (k + cs.length) ds).1, (items (k + cs.length) ds).2) := by
  induction cs with
  | nil => intro k _; simp [items]
  | cons c cs ih =>
    intro k h
    match c with
    | .whole =>
      simp only [items] at h
      simp only [List.cons_append, items, ih (k + 1) h, List.length_cons, Prod.mk.injEq]
      rw [show k + 1 + cs.length = k + (cs.length + 1) by omega]
      exact ⟨rfl, rfl⟩
    | .records rs none =>
      simp only [items] at h
      simp only [List.cons_append, items, ih (k + 1) h, List.length_cons, Prod.mk.injEq, List.append_assoc]
      rw [show k + 1 + cs.length = k + (cs.length + 1) by omega]
      exact ⟨rfl, rfl⟩
    | .records rs (some e) => simp [items] at h
    | .unreadable e => simp [items] at h

theorem rowContents_fail (e : Err) (xss : List (List Bytes)) : ∀ k,
    Assembles (.fail e) (items k (rowContents xss)).1 (rowItems k xss) (.fail e) := by
  induction xss with
  | nil => intro k; exact .fail e rfl
  | cons xs xss ih =>
    intro k
    have hx : ∀ rs : List Bytes, Assembles (.fail e) ((rs.map fun b => (⟨0, b⟩ : Record)).map (fun r => (k, Item.part r)) ++
        (items (k + 1) (rowContents xss)).1) (rs.map (fun b => (k, some b)) ++ rowItems (k + 1) xss) (.fail e) := by
      intro rs
      induction rs with
      | nil => exact ih (k + 1)
      | cons r rs ihr => exact .complete ihr
    exact hx xs

/-- Stores of rows up to one that cannot be opened. -/
theorem core_rows_breaks (rm : Machine Record) (rs : List rm.σ) (xss : List (List Bytes)) (e : Err) (he : e.translated = true)
    (more : List (Res (Option rm.σ)))
    (h : Spec.Holds rm rs (xss.map fun xs => xs.map fun b => ⟨0, b⟩)) (fuel : Nat) (hf : xss.flatten.length < fuel) :
    (coreReader rm (rs.map (fun r => .ok (some r)) ++ .err e :: more) fuel).Breaks (rowInstances xss) .dataReader := by
  obtain ⟨hlen, hfit⟩ := holds_fits rm rs xss h
  obtain ⟨h1, h2, _⟩ := rowContents_items xss 0
  have hl : (rowContents xss).length = rs.length := by simp [rowContents, hlen]
  have hi := items_append (rowContents xss) [.unreadable e] 0 h1
  have e1 : (items 0 (rowContents xss ++ [.unreadable e])).1 = (items 0 (rowContents xss)).1 := by rw [hi]; simp [items]
  have e2 : (items 0 (rowContents xss ++ [.unreadable e])).2 = .fail e := by rw [hi]; simp [items]
  have := core_breaks rm (rs.map (fun r => .ok (some r)) ++ .err e :: more) (rowContents xss ++ [.unreadable e])
    (fitsAll_before rm _ _ (by simp [hl]) hfit.2 (.err e) (.unreadable e) rfl rfl more) e he e2 fuel (by rw [e1, h2]; exact hf) (rowItems 0 xss) (.fail e) (by
      rw [e1]
      exact rowContents_fail e xss 0)
  rw [number_rows xss 0 [] (by simp)] at this
  exact this

/-! ## Headers of CSV files -/

theorem makeRecordReader_names (o : CsvOpts) (rm : Machine Record) (s : CsvState) (r : Res rm.σ) (hn : s.names ≠ []) :
    (makeRecordReader o rm s r).2.names = s.names := by
  unfold makeRecordReader
  have h0 : s.names.isEmpty = false := by simpa using hn
  cases r with
  | err e => rfl
  | ub w => rfl
  | ok r =>
    cases o.headerRow with
    | none => rfl
    | some h =>
      simp only [h0]
      rw [if_neg (by simp)]
      split
      · split <;> rfl
      · rfl

theorem openAll_keeps (o : CsvOpts) (rm : Machine Record) : ∀ (rs : List (Res rm.σ)) (s : CsvState), s.names ≠ [] →
    (openAll o rm s rs).2.names = s.names
  | [], _, _ => rfl
  | r :: rs, s, hn => by
    have h1 := makeRecordReader_names o rm s r hn
    have := openAll_keeps o rm rs (makeRecordReader o rm s r).2 (by rw [h1]; exact hn)
    simp only [openAll]
    rw [this, h1]

/-- Whatever the stores are. -/
theorem afterEpochs_keeps (o : CsvOpts) (rm : Machine Record) (stores : List (Res rm.σ)) :
    ∀ (ns : List Nat) (s : CsvState), s.readHeader = true →
    (afterEpochs o rm stores s ns).readHeader = true ∧ (s.names ≠ [] → (afterEpochs o rm stores s ns).names ≠ [])
  | [], _, hr => ⟨hr, id⟩
  | n :: ns, s, hr => by
    unfold afterEpochs
    obtain ⟨h1, h2⟩ := afterEpochs_keeps o rm stores ns (openAll o rm s (stores.take n)).2.reset rfl
    refine ⟨h1, fun hn => h2 ?_⟩
    simp only [CsvState.reset]
    rw [openAll_keeps o rm _ s hn]
    exact hn

theorem openAll_append (o : CsvOpts) (rm : Machine Record) : ∀ (as bs : List (Res rm.σ)) (s : CsvState),
    (openAll o rm s (as ++ bs)).1 = (openAll o rm s as).1 ++ (openAll o rm (openAll o rm s as).2 bs).1
  | [], _, _ => rfl
  | a :: as, bs, s => by
    simp only [List.cons_append, openAll]
    rw [openAll_append o rm as bs]

/-- C35 for the stores in front of others that can be anything. -/
theorem data_rows_before (o : CsvOpts) (rm : Machine Record) (rs : List rm.σ) (xss : List (List Record)) (more : List (Res rm.σ))
    (hh : Spec.Holds rm rs xss) (hok : ∀ h, o.headerRow = some h → ∀ xs ∈ xss, HeaderOk o h xs)
    (hsingle : o.singleHeader = true → ∀ h xs, o.headerRow = some h → xss.head? = some xs →
      o.columnNames ≠ [] ∨ h < xs.length)
    (epochs : List Nat) :
    ∃ rs' s', (openAll o rm (afterEpochs o rm (rs.map .ok ++ more) (CsvState.fresh o) epochs) (rs.map .ok ++ more)).1 =
        rs'.map .ok ++ (openAll o rm s' more).1 ∧
      Spec.Holds rm rs' (xss.zipIdx.map (fun p => dataRows o p.2 p.1)) ∧
      s' = (openAll o rm (afterEpochs o rm (rs.map .ok ++ more) (CsvState.fresh o) epochs) (rs.map .ok)).2 := by
  obtain ⟨g1, g2⟩ := afterEpochs_keeps o rm (rs.map .ok ++ more) epochs (CsvState.fresh o) rfl
  generalize afterEpochs o rm (rs.map .ok ++ more) (CsvState.fresh o) epochs = s at g1 g2
  rw [openAll_append]
  suffices h : ∃ rs', (openAll o rm s (rs.map .ok)).1 = rs'.map .ok ∧
      Spec.Holds rm rs' (xss.zipIdx.map (fun p => dataRows o p.2 p.1)) by
    obtain ⟨rs', h1, h2⟩ := h
    exact ⟨rs', _, by rw [h1], h2, rfl⟩
  cases ho : o.headerRow with
  | none =>
    refine ⟨rs, openAll_none o rm ho rs _, ?_⟩
    have : xss.zipIdx.map (fun p => dataRows o p.2 p.1) = xss := by
      simp [dataRows, ho, List.zipIdx_map_fst]
    rw [this]; exact hh
  | some h =>
    have hok := hok h ho
    by_cases hs : o.singleHeader = true
    · cases xss with
      | nil =>
        cases rs with
        | nil => exact ⟨[], rfl, trivial⟩
        | cons r rs => exact hh.elim
      | cons xs xss =>
        cases rs with
        | nil => exact hh.elim
        | cons r rs =>
          obtain ⟨rs', e, hh'⟩ := openAll_single o rm h ho hs r rs xs xss s hh hok
            (by
              rcases hsingle hs h xs ho rfl with hx | hx
              · exact Or.inl (g2 hx)
              · exact Or.inr hx) g1
          refine ⟨rs', e, ?_⟩
          have : ((xs :: xss).zipIdx.map (fun p => dataRows o p.2 p.1)) = xs.drop (h + 1) :: xss := by
            have hrest : ∀ (l : List (List Record)) (k : Nat), 0 < k →
                (l.zipIdx k).map (fun p => dataRows o p.2 p.1) = l := by
              intro l
              induction l with
              | nil => intros; rfl
              | cons y l ih =>
                intro k hk
                rw [List.zipIdx_cons, List.map_cons, ih (k + 1) (by omega)]
                simp only [dataRows, ho]
                rw [if_pos ⟨hs, by omega⟩]
            rw [List.zipIdx_cons, List.map_cons, hrest xss _ (by omega)]
            simp only [dataRows, ho]
            rw [if_neg (by simp)]
          rw [this]; exact hh'
    · have hs : o.singleHeader = false := by simpa using hs
      obtain ⟨rs', e, hh'⟩ := openAll_every o rm h ho hs rs xss s hh hok
      refine ⟨rs', e, ?_⟩
      have : (xss.zipIdx.map (fun p => dataRows o p.2 p.1)) = xss.map (·.drop (h + 1)) := by
        have : (fun p : List Record × Nat => dataRows o p.2 p.1) =
            (fun xs : List Record => xs.drop (h + 1)) ∘ Prod.fst := by
          funext p
          simp [dataRows, ho, hs]
        rw [this, ← List.map_map, List.zipIdx_map_fst]
      rw [this]; exact hh'

theorem openEpoch_before (o : CsvOpts) (rm : Machine Record) (rs rs' : List rm.σ) (e : Err) (more more' : List (Res rm.σ))
    (hist : List Nat)
    (h : (openAll o rm (afterEpochs o rm (rs.map .ok ++ .err e :: more) (CsvState.fresh o) hist) (rs.map .ok ++ .err e :: more)).1 =
      rs'.map .ok ++ .err e :: more') :
    ∃ more'', openEpoch o rm (rs.map .ok ++ .err e :: more) hist = rs'.map (fun r => Res.ok (some r)) ++ .err e :: more'' := by
  unfold openEpoch
  rw [h, List.map_append, List.map_map, List.map_cons]
  exact ⟨_, rfl⟩

/-- The core reader of a CSV reader with tables up to a store that cannot be opened. -/
theorem csvCore_breaks {m : SrcClass} {p : CsvParams} {o : CsvOpts} (hp : Plainly p o) (files : List (CsvFile m)) (hg : ∀ f ∈ files, f.Good p)
    (hsingle : o.singleHeader = true → ∀ h f, o.headerRow = some h → files.head? = some f →
      o.columnNames ≠ [] ∨ h < f.table.values.length) (e : Err) (he : e.translated = true) :
    ∃ fuel0, ∀ fuel, fuel0 ≤ fuel → ∀ more,
      (csvCoreOver unicodeCodec m p o fuel
        ((files.map fun f => f.file.stream).map (openLines unicodeCodec m fuel none) ++ .err e :: more)).Breaks
        (rowInstances (dataBytes p o files)) .dataReader := by
  refine ⟨(files.map fun f => (f.table.bytes p.delimiter p.quote).length).sum +
    (files.map fun f => f.file.bytes.length).sum + (dataBytes p o files).flatten.length + 5,
    fun fuel hf more => ?_⟩
  obtain ⟨rs, h1, h2⟩ := csvFiles_hold hp files hg fuel (by omega)
  have hok := csvFiles_headers hp files hg
  have epoch : ∀ hist, (csvCoreOver unicodeCodec m p o fuel
        ((files.map fun f => f.file.stream).map (openLines unicodeCodec m fuel none) ++ .err e :: more)).ReadsTo (.fresh, hist)
      (rowInstances (dataBytes p o files)) (.err .dataReader) := by
    intro hist
    obtain ⟨rs', s', g1, g2, _⟩ := data_rows_before o (lineMachine unicodeCodec m (csvDecode p) fuel) rs _ (.err e :: more) h2 hok (by
      intro hs h xs hh hx
      cases files with
      | nil => cases hx
      | cons f fs =>
        simp only [List.map_cons, List.head?_cons, Option.some.injEq] at hx
        rcases hsingle hs h f hh rfl with h | h
        · exact Or.inl h
        · right
          rw [← hx, List.length_map]
          rw [← (sheet_fields hp (hg f (by simp)).sheet).1, List.length_map] at h
          exact h) hist
    obtain ⟨more', g3⟩ : ∃ more', (openAll o (lineMachine unicodeCodec m (csvDecode p) fuel) s' (.err e :: more)).1 = .err e :: more' :=
      ⟨_, rfl⟩
    rw [g3] at g1
    have e1 : ∃ more'', openEpoch o (lineMachine unicodeCodec m (csvDecode p) fuel)
        ((files.map fun f => f.file.stream).map (openLines unicodeCodec m fuel none) ++ .err e :: more) hist =
        rs'.map (fun r => Res.ok (some r)) ++ .err e :: more'' := by
      obtain ⟨more'', h⟩ := openEpoch_before o (lineMachine unicodeCodec m (csvDecode p) fuel) rs rs' e more more' hist g1
      exact ⟨more'', Eq.trans (congrArg (fun l : List (Res (LineReader unicodeCodec m fuel)) =>
        openEpoch o (lineMachine unicodeCodec m (csvDecode p) fuel) (l ++ .err e :: more) hist) h1) h⟩
    obtain ⟨more'', e1⟩ := e1
    have hd : ((files.map fun f => (rowLines p.delimiter p.quote f.table).map fun b => (⟨0, b⟩ : Record)).zipIdx.map
        (fun q => dataRows o q.2 q.1)) = (dataBytes p o files).map (fun xs => xs.map fun b => (⟨0, b⟩ : Record)) := by
      unfold dataBytes
      rw [List.zipIdx_map, List.map_map, List.map_map]
      apply List.map_congr_left
      intro q _
      simp only [Function.comp_apply, Prod.map]
      exact dataRows_map _ o q.2 _
    rw [hd] at g2
    have := (core_rows_breaks _ rs' _ e he more'' g2 fuel (by omega)).first
    have key : ∀ (xs : List Inst) (c : CoreState (LineReader unicodeCodec m fuel)) (t : Res (Option Inst)),
        (coreReader (lineMachine unicodeCodec m (csvDecode p) fuel) (openEpoch o (lineMachine unicodeCodec m (csvDecode p) fuel)
          ((files.map fun f => f.file.stream).map (openLines unicodeCodec m fuel none) ++ .err e :: more) hist) fuel).ReadsTo c xs t →
        (csvCoreOver unicodeCodec m p o fuel
          ((files.map fun f => f.file.stream).map (openLines unicodeCodec m fuel none) ++ .err e :: more)).ReadsTo (c, hist) xs t := by
      intro xs
      induction xs with
      | nil => intro c t h; exact h
      | cons x xs ih => intro c t h; exact ⟨h.1, ih _ _ h.2⟩
    refine key _ _ _ ?_
    exact (congrArg (fun l => (coreReader (lineMachine unicodeCodec m (csvDecode p) fuel) l fuel).ReadsTo .fresh
      (rowInstances (dataBytes p o files)) (.err .dataReader)) e1).mpr this
  exact ⟨epoch [], fun s => epoch _⟩

/-! ## Damaged RecordIO files -/

theorem whole_damaged (junk : Bytes) (hj : junk ≠ []) (hd : ¬ ∃ f : Frame, f.Valid ∧ f.bytes <+: junk) :
    ∀ (fs : List Frame) (n : Nat), (∀ f ∈ fs, f.Valid) → wholeN recordioDecode n (recordioFile fs ++ junk) =
    ((fs.map (fun f : Frame => (⟨f.kind, f.payload⟩ : Record))).map (fun x => Res.ok (some x)) ++
      List.replicate n (Res.err .corruptHeader)).take n := by
  intro fs
  induction fs with
  | nil =>
    intro n _
    have h := ((C02_recordio_arbitrary junk false).2.2 hj hd).1
    simp only [recordioFile, List.flatMap_nil, List.nil_append, List.map_nil]
    rw [List.take_of_length_le (by simp)]
    induction n with
    | zero => rfl
    | succ n ih => simp only [wholeN, wholeStep, h, List.replicate_succ, ih]
  | cons f fs ih =>
    intro n hv
    cases n with
    | zero => simp [wholeN]
    | succ n =>
      have h1 := recordio_frame f (hv f (by simp)) (recordioFile fs ++ junk) false
      have h2 : recordioFile (f :: fs) ++ junk = f.bytes ++ (recordioFile fs ++ junk) := by simp [recordioFile]
      rw [h2, wholeN_got h1, ih n (fun g hg => hv g (by simp [hg]))]
      simp only [List.map_cons, List.cons_append, List.take_succ_cons, List.cons.injEq, true_and]
      simp only [List.take_append, List.length_map]
      congr 1
      rw [List.take_replicate, List.take_replicate]
      congr 1
      omega

/-- What a data store gives to a record reader. -/
def HasBytes {m : InStream} (opened : Opened m) (c : Bytes) : Prop :=
  match opened with
  | .memory x => x = c
  | .stream s => SuppliesTo (max (2 ^ 31) (2 * c.length)) m s c

/-- A record reader over a damaged store returns the frames in front of the damage, and then the error. -/
theorem damaged_yields {m : InStream} (frames : List Frame) (hv : ∀ f ∈ frames, f.Valid) (junk : Bytes) (hj : junk ≠ [])
    (hd : ¬ ∃ f : Frame, f.Valid ∧ f.bytes <+: junk) (opened : Opened m)
    (ho : HasBytes opened (recordioFile frames ++ junk))
    (fuel : Nat) (hf : (recordioFile frames ++ junk).length + 2 ≤ fuel) :
    (recMachine m recordioDecode fuel).Yields opened.reader (frames.map fun x => ⟨x.kind, x.payload⟩) (.err .corruptHeader) := by
  intro n
  cases opened with
  | memory x =>
    simp only [HasBytes] at ho
    subst ho
    exact (recMachine_memory_outs m _ fuel _ n).trans
      ((memReadN_eq_wholeN recordio_laws.empty recordio_noub n _).trans (whole_damaged junk hj hd frames n hv))
  | stream s =>
    refine (recMachine_stream_outs m _ fuel _ n).trans ?_
    have hout : ∀ x ∈ ((frames.map (fun f : Frame => (⟨f.kind, f.payload⟩ : Record))).map (fun x => Res.ok (some x)) ++
        List.replicate n (Res.err .corruptHeader)).take n, (∃ y, x = .ok y) ∨ x = .err .corruptHeader := by
      intro x hx
      rcases List.mem_append.1 (List.mem_of_mem_take hx) with h | h
      · obtain ⟨y, _, rfl⟩ := List.mem_map.1 h; exact Or.inl ⟨_, rfl⟩
      · exact Or.inr (List.mem_replicate.1 h).2
    refine greader_readN_to recordio_tame chunkSize fuel n s (recordioFile frames ++ junk)
      (max (2 ^ 31) (2 * (recordioFile frames ++ junk).length)) (by omega) (Nat.le_trans (by decide) (Nat.le_max_left _ _))
      (Nat.le_trans (by decide) (Nat.le_max_left _ _)) (Nat.le_max_right _ _) ho hf _ (fun sched => ?_) ?_ ?_
    · rw [C03_recordio_chunk_independent _ _ (by decide)]
      exact whole_damaged junk hj hd frames n hv
    · intro h; rcases hout _ h with ⟨y, e⟩ | e <;> cases e
    · intro w h; rcases hout _ h with ⟨y, e⟩ | e <;> cases e

/-! ## Opening stores -/

theorem cannotOpen_err {z : Inflater} {w : World} {st : Store} (h : CannotOpen w st) :
    ∃ e : Err, e.translated = true ∧ ∀ {α : Type} (f : StoreStm z → Res α), Store.openWith z w f st = .err e := by
  rcases h with ⟨h1, h2⟩ | ⟨⟨x, h1⟩, h2⟩
  · exact ⟨.systemError, rfl, fun f => by simp only [Store.openWith, (C69_errors z w st).1 h1 h2]⟩
  · exact ⟨.notSupported, rfl, fun f => by simp only [Store.openWith, (C69_errors z w st).2 x h1 h2]⟩

theorem store_supplies {z : Inflater} {w : World} {st : Store} {c : Bytes} (h : StoreHolds z w st c) (hsize : c.length < 2 ^ 31) :
    ∃ s, st.openRead z w = .ok s ∧ HasBytes s.opened c := by
  obtain ⟨x, hb, hx, h⟩ := h
  obtain ⟨s, h1, h2⟩ := behind_raw hb hx
  rcases h with ⟨hc, rfl⟩ | ⟨hc, ⟨ms, hz⟩, ha⟩
  · refine ⟨.plain s, by simp only [Store.openRead, h1, hc, makeInflate], ?_⟩
    have hs : SuppliesTo (2 ^ 63 - 1) (storeIn z) (.plain s) c := storeIn_plain (rawRel_supplies h2)
    have hs := hs.mono (C := max (2 ^ 31) (2 * c.length)) (by omega)
    cases s with
    | memory b ms =>
      obtain ⟨hl, p, hp, rfl, hd⟩ := h2
      simp only [StoreStm.opened, HasBytes]
      rw [hd]
      simp only [Int.toNat_natCast]
      rw [List.take_of_length_le (by simp only [List.length_drop]; omega)]
    | file b fs => exact hs
    | object b os => exact hs
  · refine ⟨.inflated (GzStream.new (m := rawIn) z s), by simp only [Store.openRead, h1, hc, makeInflate], ?_⟩
    exact (gz_raw h2 hz fun blocks hd => ha s blocks h1 hd).mono
      (show max (2 ^ 31) (2 * c.length) ≤ 2 ^ 32 - 1 by omega)

/-! ## The readers -/

/-- The core reader of a text line reader. -/
theorem textCore_breaks {z : Inflater} {w : World} (stores : List TextStore) (hg : ∀ t ∈ stores, t.Good z w) (bad : Store)
    (hbad : CannotOpen w bad) (later : List Store) :
    ∃ fuel0 xss, xss.flatten = stores.flatMap (fun t => t.text.content) ∧ ∀ fuel, fuel0 ≤ fuel →
      (textStoreCore unicodeCodec z w fuel (stores.map (fun t => t.store) ++ bad :: later)).Breaks (rowInstances xss) .dataReader := by
  obtain ⟨e, he, hopen⟩ := cannotOpen_err (z := z) hbad
  obtain ⟨files, g1, g2, g3⟩ := textStores_opened stores hg
  refine ⟨(files.map fun f => f.text.bytes.length).sum + (files.map fun f => f.file.bytes.length).sum +
    (files.map fun f => f.text.content).flatten.length + 5, files.map fun f => f.text.content, ?_, fun fuel hf => ?_⟩
  · rw [← g2]
    simp [datasetLines, List.flatMap]
  obtain ⟨rs, h1, h2⟩ := stores_hold (textParams false) fuel (files.map fun f => (f.file.stream, f.text.content)) (by
    intro q hq
    obtain ⟨f, hfm, rfl⟩ := List.mem_map.1 hq
    have hgf := g1 f hfm
    refine stored_rows hgf.stored (textParams false) False.elim
      (linesOk_plain (textParams false) rfl rfl (by simp [textParams]) f.text hgf.valid hgf.noMark).markFree
      (text_rowsOf f.text hgf.valid hgf.noMark) fuel ?_ ?_
    · have : f.text.bytes.length ≤ (files.map fun f => f.text.bytes.length).sum :=
        length_le_sum _ _ (List.mem_map.2 ⟨f, hfm, rfl⟩)
      omega
    · have : f.file.bytes.length ≤ (files.map fun f => f.file.bytes.length).sum :=
        length_le_sum _ _ (List.mem_map.2 ⟨f, hfm, rfl⟩)
      omega)
  simp only [List.map_map] at h1 h2
  have e1 : (files.map fun f => f.file.stream).map (lineStore unicodeCodec (storeSrc z) fuel none) = rs.map (fun r => .ok (some r)) := by
    rw [List.map_map]; exact h1
  obtain ⟨more, e2⟩ : ∃ more : List (Res (Option (LineReader unicodeCodec (storeSrc z) fuel))),
      (stores.map (fun t => t.store) ++ bad :: later).map (Store.openWith z w (lineStore unicodeCodec (storeSrc z) fuel none)) =
        rs.map (fun r => .ok (some r)) ++ .err e :: more :=
    ⟨_, by
      rw [List.map_append, List.map_cons, g3, e1]
      exact congrArg (fun x => _ ++ x :: _) (hopen _)⟩
  have := core_rows_breaks _ rs (files.map fun f => f.text.content) e he more
    (by rw [List.map_map]; exact h2) fuel (by omega)
  have e3 : textStoreCore unicodeCodec z w fuel (stores.map (fun t => t.store) ++ bad :: later) =
      lineCore unicodeCodec (storeSrc z) (csvDecode (textParams false)) fuel (rs.map (fun r => .ok (some r)) ++ .err e :: more) := by
    unfold textStoreCore
    rw [e2, textDecode_fun]
  rw [e3]
  exact this

/-- The core reader of a CSV reader. -/
theorem csvStoreCore_breaks {z : Inflater} {w : World} {p : CsvParams} {o : CsvOpts} (hp : Plainly p o) (stores : List CsvStore)
    (hg : ∀ t ∈ stores, t.Good z w p)
    (hsingle : o.singleHeader = true → ∀ h t, o.headerRow = some h → stores.head? = some t →
      o.columnNames ≠ [] ∨ h < t.table.values.length) (bad : Store) (hbad : CannotOpen w bad) (later : List Store) :
    ∃ fuel0 xss, xss.flatten.map (rowFields o.tok) = tableRows o (stores.map fun t => t.table) ∧
      (∀ row ∈ xss.flatten, tokenize o.tok row = ((rowFields o.tok row).map (cutField o.tok.maxField), .ok ())) ∧
      ∀ fuel, fuel0 ≤ fuel →
      (csvStoreCore unicodeCodec z w p o none fuel (stores.map (fun t => t.store) ++ bad :: later)).Breaks
        (rowInstances xss) .dataReader := by
  obtain ⟨e, he, hopen⟩ := cannotOpen_err (z := z) hbad
  obtain ⟨files, g1, g2, g3⟩ := csvStores_opened stores hg
  obtain ⟨fuel0, h⟩ := csvCore_breaks hp files g1 (by
    intro hs h f hh hf
    cases files with
    | nil => cases hf
    | cons f' fs =>
      cases hf
      cases stores with
      | nil => cases g2
      | cons t ts =>
        simp only [List.map_cons, List.cons.injEq] at g2
        rw [g2.1]
        exact hsingle hs h t hh rfl) e he
  obtain ⟨f1, f2⟩ := dataBytes_fields hp files g1
  refine ⟨fuel0, dataBytes p o files, by rw [f1, datasetRows_tables, g2], f2, fun fuel hf => ?_⟩
  obtain ⟨more, e2⟩ : ∃ more : List (Res (LineReader unicodeCodec (storeSrc z) fuel)),
      (stores.map (fun t => t.store) ++ bad :: later).map (Store.openWith z w (openLines unicodeCodec (storeSrc z) fuel none)) =
        (files.map fun f => f.file.stream).map (openLines unicodeCodec (storeSrc z) fuel none) ++ .err e :: more :=
    ⟨_, by
      rw [List.map_append, List.map_cons, g3]
      exact congrArg (fun x => _ ++ x :: _) (hopen _)⟩
  unfold csvStoreCore
  rw [e2]
  exact h fuel hf more

theorem assembles_other {e : Err} (e' : Err) {its is en} (h : Assembles (.fail e) its is en) :
    ∃ en', Assembles (.fail e') its is en' := by
  have key : ∀ stop, stop = .fail e → ∀ its is en, Assembles stop its is en → ∃ en', Assembles (.fail e') its is en' := by
    intro stop hs its is en h
    induction h with
    | eof h => rw [h] at hs; cases hs
    | fail e1 h => exact ⟨_, .fail e' rfl⟩
    | whole _ ih => obtain ⟨en, h⟩ := ih; exact ⟨_, .whole h⟩
    | complete _ ih => obtain ⟨en, h⟩ := ih; exact ⟨_, .complete h⟩
    | split mids _ ih => obtain ⟨en, h⟩ := ih; exact ⟨_, .split mids h⟩
    | badStart h1 h2 => exact ⟨_, .badStart h1 h2⟩
    | badNext h1 h2 => exact ⟨_, .badNext h1 h2⟩
    | cut _ h => rw [h] at hs; cases hs
    | cutFail e1 h1 h => exact ⟨_, .cutFail e' h1 rfl⟩
  exact key _ rfl _ _ _ h

/-- The stores of a RecordIO-protobuf reader, up to one that stops. -/
theorem protoStores_fit {z : Inflater} {w : World} (stores : List ProtoStore) (hg : ∀ t ∈ stores, t.Good z w)
    (bad : Store) (later : List Store) :
    ∃ fuel0, ∀ (fuel : Nat) (c : Content), fuel0 ≤ fuel → c.stops = true →
      Fits (recMachine (storeIn z) recordioDecode fuel) (Store.openWith z w (fun s => .ok (some s.opened.reader)) bad) c →
      FitsAll (recMachine (storeIn z) recordioDecode fuel)
        ((stores.map (fun t => t.store) ++ bad :: later).map (Store.openWith z w fun s => .ok (some s.opened.reader)))
        (((stores.map fun t => t.frames).map fun fs => Content.records (fs.map fun x => ⟨x.kind, x.payload⟩) none) ++ [c]) := by
  obtain ⟨files, g1, g2, g3⟩ := protoStores_opened stores hg
  refine ⟨(files.map fun f => (recordioFile f.frames).length).sum + 2, fun fuel c hf hc3 hc4 => ?_⟩
  have hl : files.length = stores.length := by
    have := congrArg List.length g2
    simpa using this
  have hfit : ∀ (i : Nat) o c, ((files.map fun f => f.opened).map fun x => Res.ok (some x.reader))[i]? = some o →
      ((stores.map fun t => t.frames).map fun fs => Content.records (fs.map fun x => ⟨x.kind, x.payload⟩) none)[i]? = some c →
      Fits (recMachine (storeIn z) recordioDecode fuel) o c := by
    intro i o c ho hc
    rw [← g2] at hc
    simp only [List.getElem?_map, Option.map_map, Option.map_eq_some_iff] at ho hc
    obtain ⟨q, hq, rfl⟩ := ho
    obtain ⟨q', hq', rfl⟩ := hc
    rw [hq] at hq'
    cases hq'
    have hm := List.mem_of_getElem? hq
    refine protoFile_yields q (g1 q hm) fuel ?_
    have : (recordioFile q.frames).length ≤ (files.map fun f => (recordioFile f.frames).length).sum :=
      length_le_sum _ _ (List.mem_map.2 ⟨q, hm, rfl⟩)
    omega
  have hall := fitsAll_before (recMachine (storeIn z) recordioDecode fuel) _ _
    ((List.length_map _).trans ((List.length_map _).trans (hl.trans (by simp)))) hfit _ c hc4 hc3
    (later.map (Store.openWith z w fun s => .ok (some s.opened.reader)))
  refine (congrArg (fun l => FitsAll (recMachine (storeIn z) recordioDecode fuel) l _) ?_).mpr hall
  exact List.map_append.trans (congrArg (· ++ _) g3)

/-- The core reader of a RecordIO-protobuf reader over stores up to one that stops behind some frames. -/
theorem protoStoreCore_stops {z : Inflater} {w : World} (stores : List ProtoStore) (hg : ∀ t ∈ stores, t.Good z w)
    (bad : Store) (later : List Store) :
    ∃ fuel0, ∀ (fuel : Nat) (frames : List Frame), fuel0 + frames.length ≤ fuel → ∀ (e : Err) (c : Content), e.translated = true →
      (∀ k, (items k [c]).1 = (items k [.records (frames.map fun x => ⟨x.kind, x.payload⟩) none]).1) →
      (∀ k, (items k [c]).2 = .fail e) → c.stops = true →
      Fits (recMachine (storeIn z) recordioDecode fuel) (Store.openWith z w (fun s => .ok (some s.opened.reader)) bad) c →
      ∀ is, InstancesBefore (stores.map (fun t => t.frames) ++ [frames]) is →
      (protoStoreCore z w fuel (stores.map (fun t => t.store) ++ bad :: later)).Breaks (number [] is) .dataReader := by
  obtain ⟨fuel1, hfits⟩ := protoStores_fit stores hg bad later
  have hstop : ∀ (qs : List (List Frame)) k, (items k (qs.map fun fs =>
      Content.records (fs.map fun x => ⟨x.kind, x.payload⟩) none)).2 = .eof := by
    intro qs
    induction qs with
    | nil => intro k; rfl
    | cons q qs ih => intro k; simpa [items] using ih (k + 1)
  refine ⟨fuel1 +
    (items 0 ((stores.map fun t => t.frames).map fun fs => Content.records (fs.map fun x => ⟨x.kind, x.payload⟩) none)).1.length + 1,
    fun fuel frames hf e c he hc1 hc2 hc3 hc4 is hi => ?_⟩
  obtain ⟨e0, en0, ha⟩ := hi
  have hcs := items_append ((stores.map fun t => t.frames).map fun fs => Content.records (fs.map fun x => ⟨x.kind, x.payload⟩) none)
    [c] 0 (hstop _ 0)
  have hcs' := items_append ((stores.map fun t => t.frames).map fun fs => Content.records (fs.map fun x => ⟨x.kind, x.payload⟩) none)
    [.records (frames.map fun x => ⟨x.kind, x.payload⟩) none] 0 (hstop _ 0)
  rw [List.map_append, List.map_cons, List.map_nil, hcs', ← hc1] at ha
  obtain ⟨en, ha⟩ := assembles_other e ha
  refine core_breaks (recMachine (storeIn z) recordioDecode fuel) _
    (((stores.map fun t => t.frames).map fun fs => Content.records (fs.map fun x => ⟨x.kind, x.payload⟩) none) ++ [c]) ?_ e he
    (by rw [hcs]; exact hc2 _) fuel (by
      rw [hcs, hc1]
      simp only [items, List.length_append, List.length_map, List.length_nil]
      omega) is en (by rw [hcs]; exact ha)
  exact hfits fuel c (by omega) hc3 hc4

/-- The core reader of a RecordIO-protobuf reader. -/
theorem protoStoreCore_breaks {z : Inflater} {w : World} (stores : List ProtoStore) (hg : ∀ t ∈ stores, t.Good z w)
    (bad : Store) (frames : List Frame) (hbad : BreaksAfter z w bad frames) (later : List Store)
    (is : List (Nat × Option Bytes)) (hi : InstancesBefore (stores.map (fun t => t.frames) ++ [frames]) is) :
    ∃ fuel0, ∀ fuel, fuel0 ≤ fuel →
      (protoStoreCore z w fuel (stores.map (fun t => t.store) ++ bad :: later)).Breaks (number [] is) .dataReader := by
  obtain ⟨fuel0, h⟩ := protoStoreCore_stops stores hg bad later
  rcases hbad with ⟨hb, rfl⟩ | ⟨hv, junk, hj, hd, hh, hsz⟩
  · obtain ⟨e, he, hopen⟩ := cannotOpen_err (z := z) hb
    exact ⟨fuel0, fun fuel hf => h fuel [] hf e (.unreadable e) he (fun k => rfl) (fun k => rfl) rfl (by rw [hopen]; rfl) is hi⟩
  · obtain ⟨s, h1, h2⟩ := store_supplies hh hsz
    refine ⟨fuel0 + frames.length + (recordioFile frames ++ junk).length + 2, fun fuel hf =>
      h fuel frames (by omega) .corruptHeader (.records (frames.map fun x => ⟨x.kind, x.payload⟩) (some .corruptHeader)) rfl
        (fun k => by simp [items]) (fun k => rfl) rfl ?_ is hi⟩
    have := damaged_yields frames hv junk hj hd s.opened h2 fuel (by omega)
    simp only [Store.openWith, h1]
    exact this

end Mlio
