import Verif.Proofs.CutGzip
import Verif.Proofs.FailingStores

/-!
# Data stores that were cut: proofs
-/

namespace Mlio
open Spec

theorem Follows.mono {B C : Nat} {e : Err} {m m' : InStream} {F : Nat → m.σ → Prop} {R : m.σ → m'.σ → Prop}
    (h : Follows B e m m' F R) (hc : C ≤ B) : Follows C e m m' F R :=
  ⟨fun s s' n hR h0 hn => h.step s s' n hR h0 (Nat.le_trans hn hc),
    fun s k n hF hk h0 hn => h.stuck s k n hF hk h0 (Nat.le_trans hn hc), h.weaken⟩

/-- See `patched`. -/
def patchedSrc (m : SrcClass) : SrcClass where
  toInStream := patched m.toInStream
  seek0 _ := none
  whole _ := none

/-- The stream of a store that was cut, and one that goes on. -/
theorem cut_follows (z : Inflater) : ∃ R : (storeSrc z).σ → (patchedSrc (storeSrc z)).σ → Prop,
    Follows (2 ^ 32 - 1) .inflateError (storeSrc z).toInStream (patchedSrc (storeSrc z)).toInStream (fun _ => CutFailed) R ∧
    (∀ s s', R s s' → (storeSrc z).seek0 s = none ∧ (patchedSrc (storeSrc z)).seek0 s' = none) ∧
    ∀ s x rest, CutStream s x → R s (some s, x ++ rest) ∧
      SourceOf (2 ^ 32 - 1) (patchedSrc (storeSrc z)) false false (x ++ rest) (some s, x ++ rest) := by
  obtain ⟨R, h1, h2, h3⟩ := patched_follows (m := storeIn z) CutStream (fun _ => CutFailed) cut_step
    (fun s _ n h _ h0 hn => cut_stuck s n h h0 hn) (fun _ _ _ h _ => h)
  refine ⟨R, h1, fun s s' h => ⟨?_, rfl⟩, fun s x rest h => ⟨(h3 s x rest h).1, ⟨⟨(h3 s x rest h).2, rfl⟩, fun ns _ => rfl⟩⟩⟩
  obtain ⟨x, g, rest, rfl, _⟩ := h2 s s' h
  rfl

/-- The rows of a store of text that was cut. -/
theorem cut_lines {z : Inflater} {w : World} {safe : Prop} {enc : Encoding} {text : Bytes} {st : Store}
    (h : CutText z w safe enc text st) (p : CsvParams) (hsafe : safe → CrlfOk p text) (hb : MarkFree p text) {rows : List Bytes}
    (hr : RowsOf p text rows) :
    ∃ s fuel0, st.openRead z w = .ok s ∧ ∀ fuel, fuel0 ≤ fuel →
      openLines unicodeCodec (storeSrc z) fuel none s = .err .inflateError ∨
      ∃ r k, openLines unicodeCodec (storeSrc z) fuel none s = .ok r ∧ k ≤ rows.length ∧
        (lineMachine unicodeCodec (storeSrc z) (csvDecode p) fuel).Yields r ((rows.take k).map fun b => ⟨0, b⟩) (.err .inflateError) := by
  obtain ⟨⟨x, file, hc, ⟨rest, rfl⟩, henc, hlong⟩, hsize, hz, hfits⟩ := h
  obtain ⟨s, h1, h2⟩ := cut_open hc
  obtain ⟨R, f1, f2, f3⟩ := cut_follows z
  obtain ⟨g1, g2⟩ := f3 s x rest h2
  refine ⟨s, text.length + (x ++ rest).length + 6, h1, fun fuel hf => ?_⟩
  have hst : Stored (m := patchedSrc (storeSrc z)) safe enc text ⟨x ++ rest, false, false, (some s, x ++ rest)⟩ :=
    ⟨Spec.SourceOf.mono g2 (by omega), henc, fun h => (by cases h), fun a b => Or.inr (hlong a b), hz, Or.inr hfits⟩
  obtain ⟨fuel, rfl⟩ : ∃ k, fuel = k + 1 := ⟨fuel - 1, by omega⟩
  obtain ⟨r', e1, e2, e3⟩ := stored_backed hst p hsafe hb hr (fuel + 1) (by omega) (by simp only; omega)
  exact openLines_follows (f1.mono (by omega)) (Nat.le_max_left _ _) f2 s _ g1 p fuel rows r' e1 e2 e3

/-- The frames of a store that was cut. -/
theorem cut_frames {z : Inflater} {w : World} {t : ProtoStore} (h : t.Cut z w) :
    ∃ s fuel0, t.store.openRead z w = .ok s ∧ ∀ fuel, fuel0 ≤ fuel → ∃ k, k ≤ t.frames.length ∧
      (recMachine (storeIn z) recordioDecode fuel).Yields s.opened.reader ((t.frames.take k).map fun x => ⟨x.kind, x.payload⟩)
        (.err .inflateError) := by
  obtain ⟨hv, ⟨x, hc, rest, hx⟩, hsize⟩ := h
  obtain ⟨s, h1, h2⟩ := cut_open hc
  obtain ⟨R, f1, f2, f3⟩ := cut_follows z
  obtain ⟨g1, g2⟩ := f3 s x rest h2
  refine ⟨s, (recordioFile t.frames).length + 3, h1, fun fuel hf => ?_⟩
  obtain ⟨fuel, rfl⟩ : ∃ k, fuel = k + 1 := ⟨fuel - 1, by omega⟩
  have hsup : SuppliesTo (2 ^ 32 - 1) (patched (storeIn z)) (some s, x ++ rest) (x ++ rest) := g2.delivers
  rw [hx] at hsup g1
  have hread : ∀ n, ((GReader.init chunkSize s : GReader (storeIn z)).over
      (m' := patched (storeIn z)) (some s, recordioFile t.frames)).readN recordioDecode (fuel + 1) n =
      ((t.frames.map fun x : Frame => (⟨x.kind, x.payload⟩ : Record)).map (fun r => Res.ok (some r)) ++
        List.replicate n (Res.ok none)).take n := by
    intro n
    have hle : max (2 ^ 31) (2 * (recordioFile t.frames).length) ≤ 2 ^ 32 - 1 := by omega
    have hgood : (⟨t.frames, .stream (some s, recordioFile t.frames)⟩ : ProtoFile (patched (storeIn z))).Good :=
      ⟨hv, hsup.mono hle⟩
    have := protoFile_yields _ hgood (fuel + 1) (show (recordioFile t.frames).length + 2 ≤ fuel + 1 by omega) n
    exact (recMachine_stream_outs (patched (storeIn z)) recordioDecode (fuel + 1) _ n).symm.trans this
  obtain ⟨k, k1, k2⟩ := readN_follows f1 recordio_tame (D := (recordioFile t.frames).length) (by omega) (by omega) fuel
    (t.frames.map fun x : Frame => ⟨x.kind, x.payload⟩) (GReader.init chunkSize s : GReader (storeIn z)) (some s, recordioFile t.frames)
    (recordioFile t.frames) g1 rfl (show 0 < chunkSize by decide)
    ⟨hsup.capped (by omega), by simp [GReader.over, GReader.init], by simp [GReader.over, GReader.init, chunkSize]⟩ hread
  refine ⟨k, by simpa using k1, fun n => ?_⟩
  obtain ⟨g, _, hg, _⟩ := h2
  subst hg
  rw [show StoreStm.opened (.inflated g) = .stream (.inflated g) from rfl]
  refine (recMachine_stream_outs (storeIn z) _ _ _ n).trans ?_
  rw [List.map_take]
  exact k2 n

/-! ## Core readers -/

/-- Stores of rows up to one that fails behind some rows. -/
theorem core_rows_cut (rm : Machine Record) (rs : List rm.σ) (xss : List (List Bytes)) (cut : List Bytes) (e : Err)
    (he : e.translated = true) (r : rm.σ) (hr : rm.Yields r (cut.map fun b => ⟨0, b⟩) (.err e)) (more : List (Res (Option rm.σ)))
    (h : Spec.Holds rm rs (xss.map fun xs => xs.map fun b => ⟨0, b⟩)) (fuel : Nat) (hf : xss.flatten.length + cut.length < fuel) :
    (coreReader rm (rs.map (fun r => .ok (some r)) ++ .ok (some r) :: more) fuel).Breaks (rowInstances (xss ++ [cut]))
      .dataReader := by
  obtain ⟨hlen, hfit⟩ := holds_fits rm rs xss h
  obtain ⟨h1, h2, _⟩ := rowContents_items xss 0
  obtain ⟨_, h3, _⟩ := rowContents_items (xss ++ [cut]) 0
  have hl : (rowContents xss).length = rs.length := by simp [rowContents, hlen]
  have hi := items_append (rowContents xss) [.records (cut.map fun b => ⟨0, b⟩) (some e)] 0 h1
  have hi' := items_append (rowContents xss) (rowContents [cut]) 0 h1
  have ha : rowContents (xss ++ [cut]) = rowContents xss ++ rowContents [cut] := by simp [rowContents]
  have e1 : (items 0 (rowContents xss ++ [.records (cut.map fun b => ⟨0, b⟩) (some e)])).1 =
      (items 0 (rowContents (xss ++ [cut]))).1 := by
    rw [ha, hi, hi']
    simp [items, rowContents]
  have e2 : (items 0 (rowContents xss ++ [.records (cut.map fun b => ⟨0, b⟩) (some e)])).2 = .fail e := by rw [hi]; simp [items]
  have := core_breaks rm (rs.map (fun r => .ok (some r)) ++ .ok (some r) :: more)
    (rowContents xss ++ [.records (cut.map fun b => ⟨0, b⟩) (some e)])
    (fitsAll_before rm _ _ (by simp [hl]) hfit.2 (.ok (some r)) (.records (cut.map fun b => ⟨0, b⟩) (some e)) hr rfl more) e he e2
    fuel (by rw [e1, h3]; simpa using hf) (rowItems 0 (xss ++ [cut])) (.fail e) (by
      rw [e1]
      exact rowContents_fail e (xss ++ [cut]) 0)
  rw [number_rows (xss ++ [cut]) 0 [] (by simp)] at this
  exact this

/-- What a text reader gets from a store that cannot be read to its end: it cannot make a record reader, or that one returns some of
the rows and then fails again and again. -/
def LinesFail (z : Inflater) (w : World) (st : Store) (p : CsvParams) (rows : List Bytes) (e : Err) : Prop :=
  ∃ s fuel0, st.openRead z w = .ok s ∧ ∀ fuel, fuel0 ≤ fuel →
    openLines unicodeCodec (storeSrc z) fuel none s = .err e ∨
    ∃ r k, openLines unicodeCodec (storeSrc z) fuel none s = .ok r ∧ k ≤ rows.length ∧
      (lineMachine unicodeCodec (storeSrc z) (csvDecode p) fuel).Yields r ((rows.take k).map fun b => ⟨0, b⟩) (.err e)

/-- The core reader of a text line reader with a store that fails. -/
theorem textCore_fails {z : Inflater} {w : World} (stores : List TextStore) (hg : ∀ t ∈ stores, t.Good z w) (t : TextStore)
    (e : Err) (he : e.translated = true) (ht : LinesFail z w t.store (textParams false) t.text.content e) (later : List Store) :
    ∃ fuel0, ∀ fuel, fuel0 ≤ fuel → ∃ k xss, (stores.flatMap fun t => t.text.content).length ≤ k ∧
      xss.flatten = ((stores ++ [t]).flatMap fun t => t.text.content).take k ∧
      (textStoreCore unicodeCodec z w fuel ((stores ++ [t]).map (fun t => t.store) ++ later)).Breaks (rowInstances xss) .dataReader := by
  obtain ⟨files, g1, g2, g3⟩ := textStores_opened stores hg
  obtain ⟨s, fuel1, ho, hcut⟩ := ht
  refine ⟨(files.map fun f => f.text.bytes.length).sum + (files.map fun f => f.file.bytes.length).sum +
    (files.map fun f => f.text.content).flatten.length + t.text.content.length + fuel1 + 5, fun fuel hf => ?_⟩
  have g2' : (files.map fun f => f.text.content).flatten = stores.flatMap (fun t => t.text.content) := by
    rw [← g2]
    simp [datasetLines, List.flatMap]
  obtain ⟨rs, h1, h2⟩ := stores_hold (textParams false) fuel (files.map fun f => (f.file.stream, f.text.content)) (by
    intro q hq
    obtain ⟨f, hfm, rfl⟩ := List.mem_map.1 hq
    have hgf := g1 f hfm
    refine stored_rows hgf.stored (textParams false) False.elim
      (linesOk_plain (textParams false) rfl rfl (by simp [textParams]) f.text hgf.valid hgf.noMark).markFree
      (text_rowsOf f.text hgf.valid hgf.noMark) fuel ?_ ?_
    · have : f.text.bytes.length ≤ (files.map fun f => f.text.bytes.length).sum :=
        length_le_sum _ _ (List.mem_map.2 ⟨f, hfm, rfl⟩)
      omega
    · have : f.file.bytes.length ≤ (files.map fun f => f.file.bytes.length).sum :=
        length_le_sum _ _ (List.mem_map.2 ⟨f, hfm, rfl⟩)
      omega)
  simp only [List.map_map] at h1 h2
  have e1 : (files.map fun f => f.file.stream).map (lineStore unicodeCodec (storeSrc z) fuel none) = rs.map (fun r => .ok (some r)) := by
    rw [List.map_map]; exact h1
  have e2 : ((stores ++ [t]).map (fun t => t.store) ++ later).map (Store.openWith z w (lineStore unicodeCodec (storeSrc z) fuel none)) =
        rs.map (fun r => .ok (some r)) ++ lineStore unicodeCodec (storeSrc z) fuel none s ::
          later.map (Store.openWith z w (lineStore unicodeCodec (storeSrc z) fuel none)) := by
    rw [List.map_append, List.map_append, List.map_append, g3, e1]
    simp [Store.openWith, ho]
  have e3 : ∀ x, lineStore unicodeCodec (storeSrc z) fuel none s = x →
      textStoreCore unicodeCodec z w fuel ((stores ++ [t]).map (fun t => t.store) ++ later) =
      lineCore unicodeCodec (storeSrc z) (csvDecode (textParams false)) fuel (rs.map (fun r => .ok (some r)) ++ x ::
        later.map (Store.openWith z w (lineStore unicodeCodec (storeSrc z) fuel none))) := by
    intro x hx
    unfold textStoreCore
    rw [e2, textDecode_fun, hx]
  have h2' : Spec.Holds (lineMachine unicodeCodec (storeSrc z) (csvDecode (textParams false)) fuel) rs
      ((files.map fun f => f.text.content).map fun xs => xs.map fun b => ⟨0, b⟩) := by
    rw [List.map_map]; exact h2
  rcases hcut fuel (by omega) with h | ⟨r, k, h, hk, hy⟩
  · refine ⟨(stores.flatMap fun t => t.text.content).length, files.map fun f => f.text.content, Nat.le_refl _, ?_, ?_⟩
    · rw [g2', List.flatMap_append, List.take_left]
    · rw [e3 (.err e) (by simp only [lineStore, h])]
      exact core_rows_breaks (lineMachine unicodeCodec (storeSrc z) (csvDecode (textParams false)) fuel) rs (files.map fun f => f.text.content) e he _ h2' fuel (by omega)
  · refine ⟨(stores.flatMap fun t => t.text.content).length + k, (files.map fun f => f.text.content) ++ [t.text.content.take k],
      Nat.le_add_right _ _, ?_, ?_⟩
    · rw [List.flatten_append, g2', List.flatMap_append, List.take_length_add_append]
      simp
    · rw [e3 (.ok (some r)) (by simp only [lineStore, h])]
      exact core_rows_cut (lineMachine unicodeCodec (storeSrc z) (csvDecode (textParams false)) fuel) rs
        (files.map fun f => f.text.content) (t.text.content.take k) e he r hy _ h2' fuel
        (by rw [List.length_take]; omega)

/-- The core reader of a text line reader with a store that was cut. -/
theorem textCore_cut {z : Inflater} {w : World} (stores : List TextStore) (hg : ∀ t ∈ stores, t.Good z w) (t : TextStore)
    (ht : t.Cut z w) (later : List Store) :
    ∃ fuel0, ∀ fuel, fuel0 ≤ fuel → ∃ k xss, (stores.flatMap fun t => t.text.content).length ≤ k ∧
      xss.flatten = ((stores ++ [t]).flatMap fun t => t.text.content).take k ∧
      (textStoreCore unicodeCodec z w fuel ((stores ++ [t]).map (fun t => t.store) ++ later)).Breaks (rowInstances xss) .dataReader :=
  textCore_fails stores hg t .inflateError rfl (cut_lines ht.stored (textParams false) False.elim
    (linesOk_plain (textParams false) rfl rfl (by simp [textParams]) t.text ht.valid ht.noMark).markFree
    (text_rowsOf t.text ht.valid ht.noMark)) later

/-! ## CSV -/

/-- The reader, or the attempt to make it, fails behind the records. -/
def FailsAfter (rm : Machine Record) (x : Res rm.σ) (cut : List Record) (e : Err) : Prop :=
  (x = .err e ∧ cut = []) ∨ ∃ r, x = .ok r ∧ rm.Yields r cut (.err e)

theorem skipToHeader_cut (rm : Machine Record) (e : Err) : ∀ (h : Nat) (r : rm.σ) (xs : List Record),
    rm.Yields r xs (.err e) →
    (xs.length < h ∧ ∃ r', skipToHeader rm h r = (.err e, r')) ∨
    (h ≤ xs.length ∧ ∃ r', skipToHeader rm h r = (.ok (), r') ∧ rm.Yields r' (xs.drop h) (.err e))
  | 0, r, xs, hy => Or.inr ⟨Nat.zero_le _, r, rfl, by simpa using hy⟩
  | h + 1, r, [], hy => by
    obtain ⟨r', e, hy'⟩ := hy.read_nil
    exact Or.inl ⟨by simp, r', by simp [skipToHeader, e]⟩
  | h + 1, r, x :: xs, hy => by
    obtain ⟨r', e, hy'⟩ := hy.read_cons
    rcases skipToHeader_cut rm _ h r' xs hy' with ⟨h1, r'', h2⟩ | ⟨h1, r'', h2, h3⟩
    · exact Or.inl ⟨by simp only [List.length_cons]; omega, r'', by simp [skipToHeader, e, h2]⟩
    · exact Or.inr ⟨by simp only [List.length_cons]; omega, r'', by simp [skipToHeader, e, h2], by simpa using h3⟩

/-- `make_record_reader` for a store that fails behind some records. -/
theorem makeRecordReader_cut (o : CsvOpts) (rm : Machine Record) (e : Err) (he : schemaErr e = e) (s : CsvState) (x : Res rm.σ)
    (cut : List Record) (hx : FailsAfter rm x cut e) (hok : ∀ h, o.headerRow = some h → HeaderOk o h cut) :
    FailsAfter rm (makeRecordReader o rm s x).1
      (match o.headerRow with
        | none => cut
        | some h => if s.names = [] ∨ s.readHeader = true ∨ o.singleHeader = false then cut.drop (h + 1) else cut) e := by
  rcases hx with ⟨rfl, rfl⟩ | ⟨r, rfl, hy⟩
  · refine Or.inl ⟨rfl, ?_⟩
    split
    · rfl
    · split <;> simp
  unfold makeRecordReader
  cases ho : o.headerRow with
  | none => exact Or.inr ⟨r, rfl, hy⟩
  | some h =>
    have hok := hok h ho
    simp only
    have hcut : ∀ {xs : List Record}, xs.length < h → xs.drop (h + 1) = [] := fun hl => List.drop_eq_nil_iff.2 (by omega)
    by_cases hn : s.names = []
    · rw [if_pos (by simpa using hn), if_pos (Or.inl hn)]
      unfold readNames
      rcases skipToHeader_cut rm e h r cut hy with ⟨h1, r1, h2⟩ | ⟨h1, r1, h2, h3⟩
      · rw [h2]
        exact Or.inl ⟨rfl, hcut h1⟩
      · rw [h2]
        cases hd : cut.drop h with
        | nil =>
          rw [hd] at h3
          obtain ⟨r2, e2, hy2⟩ := h3.read_nil
          simp only [e2, he]
          exact Or.inl ⟨rfl, by rw [List.drop_eq_nil_iff] at hd ⊢; omega⟩
        | cons y ys =>
          rw [hd] at h3
          obtain ⟨r2, e2, hy2⟩ := h3.read_cons
          have hh : cut[h]? = some y := by
            have := congrArg (·[0]?) hd
            simpa using this
          have ht := hok y hh
          have : (namesFromRow o s y.payload).1 = .ok () := by
            unfold namesFromRow
            simp only [ht]
          simp only [e2, this]
          refine Or.inr ⟨r2, rfl, ?_⟩
          have : cut.drop (h + 1) = ys := by rw [← List.drop_drop, hd]; rfl
          rw [this]; exact hy2
    · rw [if_neg (by simpa using hn)]
      by_cases hc : s.readHeader = true ∨ o.singleHeader = false
      · rw [if_pos (by simpa using hc), if_pos (Or.inr hc)]
        unfold discardHeader
        rcases skipToHeader_cut rm e h r cut hy with ⟨h1, r1, h2⟩ | ⟨h1, r1, h2, h3⟩
        · rw [h2]
          exact Or.inl ⟨rfl, hcut h1⟩
        · rw [h2]
          cases hd : cut.drop h with
          | nil =>
            rw [hd] at h3
            obtain ⟨r2, e2, hy2⟩ := h3.read_nil
            simp only [e2]
            exact Or.inl ⟨rfl, by rw [List.drop_eq_nil_iff] at hd ⊢; omega⟩
          | cons y ys =>
            rw [hd] at h3
            obtain ⟨r2, e2, hy2⟩ := h3.read_cons
            simp only [e2]
            refine Or.inr ⟨r2, rfl, ?_⟩
            have : cut.drop (h + 1) = ys := by rw [← List.drop_drop, hd]; rfl
            rw [this]; exact hy2
      · rw [if_neg (by simpa using hc), if_neg (by rintro (h | h); exact hn h; exact hc h)]
        exact Or.inr ⟨r, rfl, hy⟩

theorem openAll_readHeader (o : CsvOpts) (rm : Machine Record) (h : Nat) (ho : o.headerRow = some h) :
    ∀ (rs : List rm.σ) (xss : List (List Record)) (s : CsvState),
    Spec.Holds rm rs xss → (∀ xs ∈ xss, HeaderOk o h xs) → s.readHeader = false →
    (openAll o rm s (rs.map .ok)).2.readHeader = false
  | [], [], s, _, _, hr => hr
  | r :: rs, xs :: xss, s, hh, hok, _ => by
    obtain ⟨r', s', e, h0, _, _, _⟩ := makeRecordReader_yields o rm h ho s r xs hh.1 (hok xs (by simp))
    have := openAll_readHeader o rm h ho rs xss s' hh.2 (fun x hx => hok x (by simp [hx])) h0
    simp only [List.map_cons, openAll, e]
    exact this
  | [], _ :: _, _, h, _, _ => h.elim
  | _ :: _, [], _, h, _, _ => h.elim

/-- The state of the reader behind some stores. -/
theorem openAll_state (o : CsvOpts) (rm : Machine Record) (h : Nat) (ho : o.headerRow = some h) (r : rm.σ) (rs : List rm.σ)
    (xs : List Record) (xss : List (List Record)) (s : CsvState) (hh : Spec.Holds rm (r :: rs) (xs :: xss))
    (hok : ∀ x ∈ xs :: xss, HeaderOk o h x) (hn : s.names ≠ [] ∨ h < xs.length) :
    (openAll o rm s ((r :: rs).map .ok)).2.names ≠ [] ∧ (openAll o rm s ((r :: rs).map .ok)).2.readHeader = false := by
  obtain ⟨r', s', e, h0, h1, h2, hy⟩ := makeRecordReader_yields o rm h ho s r xs hh.1 (hok xs (by simp))
  have hn' : s'.names ≠ [] := by
    by_cases hc : s.names = []
    · have hlt : h < xs.length := hn.resolve_left (fun hn => hn hc)
      have hx : xs[h]? = some xs[h] := by simp [hlt]
      rw [h2 hc, hx]
      exact headerNames_ne_nil o _ (hok xs (by simp) _ hx)
    · rw [h1 hc]; exact hc
  simp only [List.map_cons, openAll, e]
  refine ⟨?_, openAll_readHeader o rm h ho rs xss s' hh.2 (fun x hx => hok x (by simp [hx])) h0⟩
  rw [openAll_names o rm h ho rs xss s' hh.2 (fun x hx => hok x (by simp [hx])) hn']
  exact hn'

/-- C35 for stores up to one that fails behind some rows. -/
theorem data_rows_cut (o : CsvOpts) (rm : Machine Record) (rs : List rm.σ) (xss : List (List Record)) (e : Err)
    (he : schemaErr e = e) (x : Res rm.σ) (cut : List Record) (hx : FailsAfter rm x cut e) (more : List (Res rm.σ))
    (hh : Spec.Holds rm rs xss) (hok : ∀ h, o.headerRow = some h → ∀ xs ∈ xss, HeaderOk o h xs)
    (hokc : ∀ h, o.headerRow = some h → HeaderOk o h cut)
    (hsingle : o.singleHeader = true → ∀ h xs, o.headerRow = some h → xss.head? = some xs →
      o.columnNames ≠ [] ∨ h < xs.length)
    (epochs : List Nat) :
    ∃ rs' y more', (openAll o rm (afterEpochs o rm (rs.map .ok ++ x :: more) (CsvState.fresh o) epochs) (rs.map .ok ++ x :: more)).1 =
        rs'.map .ok ++ y :: more' ∧
      Spec.Holds rm rs' (xss.zipIdx.map (fun p => dataRows o p.2 p.1)) ∧
      FailsAfter rm y (dataRows o xss.length cut) e := by
  obtain ⟨rs', s', g1, g2, g3⟩ := data_rows_before o rm rs xss (x :: more) hh hok hsingle epochs
  refine ⟨rs', (makeRecordReader o rm s' x).1, (openAll o rm (makeRecordReader o rm s' x).2 more).1, g1, g2, ?_⟩
  have hc := makeRecordReader_cut o rm e he s' x cut hx hokc
  obtain ⟨k1, k2⟩ := afterEpochs_keeps o rm (rs.map .ok ++ x :: more) epochs (CsvState.fresh o) rfl
  generalize afterEpochs o rm (rs.map .ok ++ x :: more) (CsvState.fresh o) epochs = s at g3 k1 k2
  unfold dataRows
  cases ho : o.headerRow with
  | none => rw [ho] at hc; exact hc
  | some h =>
    rw [ho] at hc
    simp only at hc ⊢
    cases xss with
    | nil =>
      cases rs with
      | cons r rs => exact hh.elim
      | nil =>
        have : s' = s := g3
        subst this
        rw [if_pos (Or.inr (Or.inl k1))] at hc
        rw [if_neg (by simp)]
        exact hc
    | cons xs xss =>
      cases rs with
      | nil => exact hh.elim
      | cons r rs =>
        by_cases hs : o.singleHeader = true
        · obtain ⟨n1, n2⟩ := openAll_state o rm h ho r rs xs xss s hh (hok h ho) ((hsingle hs h xs ho rfl).imp k2 id)
          rw [← g3] at n1 n2
          rw [if_neg (by rintro (h | h | h); exact n1 h; simp [n2] at h; simp [hs] at h)] at hc
          rw [if_pos ⟨hs, by simp⟩]
          exact hc
        · rw [if_pos (Or.inr (Or.inr (by simpa using hs)))] at hc
          rw [if_neg (by simp [hs])]
          exact hc

theorem rowInstances_empty (xss : List (List Bytes)) : rowInstances (xss ++ [[]]) = rowInstances xss := by
  simp [rowInstances, List.zipIdx_append]

def someReader {α : Type} : Res α → Res (Option α)
  | .ok r => .ok (some r)
  | .err e => .err e
  | .ub w => .ub w

theorem openEpoch_split (o : CsvOpts) (rm : Machine Record) (readers : List (Res rm.σ)) (hist : List Nat) (rs' : List rm.σ)
    (y : Res rm.σ) (more' : List (Res rm.σ))
    (h : (openAll o rm (afterEpochs o rm readers (CsvState.fresh o) hist) readers).1 = rs'.map .ok ++ y :: more') :
    openEpoch o rm readers hist = rs'.map (fun r => Res.ok (some r)) ++ someReader y :: more'.map someReader := by
  have e : openEpoch o rm readers hist =
      (openAll o rm (afterEpochs o rm readers (CsvState.fresh o) hist) readers).1.map someReader := by
    unfold openEpoch
    exact List.map_congr_left fun r _ => by cases r <;> rfl
  rw [e, h, List.map_append, List.map_map]
  rfl

/-- Stores of rows up to one that fails behind some rows, or cannot be opened. -/
theorem core_rows_fail (rm : Machine Record) (rs : List rm.σ) (xss : List (List Bytes)) (cut : List Bytes) (e : Err)
    (he : e.translated = true) (y : Res rm.σ) (hy : FailsAfter rm y (cut.map fun b => ⟨0, b⟩) e) (more : List (Res (Option rm.σ)))
    (h : Spec.Holds rm rs (xss.map fun xs => xs.map fun b => ⟨0, b⟩)) (fuel : Nat) (hf : xss.flatten.length + cut.length < fuel) :
    (coreReader rm (rs.map (fun r => .ok (some r)) ++ someReader y :: more) fuel).Breaks (rowInstances (xss ++ [cut]))
      .dataReader := by
  rcases hy with ⟨rfl, hc⟩ | ⟨r, rfl, hr⟩
  · have : cut = [] := by simpa using hc
    subst this
    rw [rowInstances_empty]
    exact core_rows_breaks rm rs xss e he _ h fuel (by simpa using hf)
  · exact core_rows_cut rm rs xss cut e he r hr _ h fuel hf

theorem dataRows_take {α : Type} (o : CsvOpts) (i : Nat) (xs : List α) (k : Nat) :
    ∃ k', dataRows o i (xs.take k) = (dataRows o i xs).take k' := by
  unfold dataRows
  split
  · exact ⟨k, rfl⟩
  · next h _ =>
    split
    · exact ⟨k, rfl⟩
    · exact ⟨k - (h + 1), by rw [List.drop_take]⟩

/-- The core reader of a CSV reader with a store that fails. -/
theorem csvCore_fails {z : Inflater} {w : World} {p : CsvParams} {o : CsvOpts} (hp : Plainly p o) (stores : List CsvStore)
    (hg : ∀ t ∈ stores, t.Good z w p) (t : CsvStore)
    (hsheet : t.table.Good p) (e : Err) (he : e.translated = true) (he2 : schemaErr e = e)
    (ht : LinesFail z w t.store p (rowLines p.delimiter p.quote t.table) e)
    (hsingle : o.singleHeader = true → ∀ h t, o.headerRow = some h → stores.head? = some t →
      o.columnNames ≠ [] ∨ h < t.table.values.length) (later : List Store) :
    ∃ fuel0, ∀ fuel, fuel0 ≤ fuel → ∃ k xss, (tableRows o (stores.map fun t => t.table)).length ≤ k ∧
      xss.flatten.map (rowFields o.tok) = (tableRows o ((stores ++ [t]).map fun t => t.table)).take k ∧
      (∀ row ∈ xss.flatten, tokenize o.tok row = ((rowFields o.tok row).map (cutField o.tok.maxField), .ok ())) ∧
      (csvStoreCore unicodeCodec z w p o none fuel ((stores ++ [t]).map (fun t => t.store) ++ later)).Breaks
        (rowInstances xss) .dataReader := by
  obtain ⟨files, g1, g2, g3⟩ := csvStores_opened stores hg
  obtain ⟨c1, c2⟩ := sheet_fields hp hsheet
  have hheader : ∀ h, o.headerRow = some h →
      HeaderOk o h ((rowLines p.delimiter p.quote t.table).map fun b => (⟨0, b⟩ : Record)) := by
    intro h _ hdr hh
    rw [List.getElem?_map] at hh
    cases hrow : (rowLines p.delimiter p.quote t.table)[h]? with
    | none => rw [hrow] at hh; cases hh
    | some row =>
      rw [hrow] at hh
      cases hh
      rw [c2 row (List.mem_of_getElem? hrow)]
  obtain ⟨s, fuel1, ho, hcut⟩ := ht
  obtain ⟨f1, f2⟩ := dataBytes_fields hp files g1
  refine ⟨(files.map fun f => (f.table.bytes p.delimiter p.quote).length).sum +
    (files.map fun f => f.file.bytes.length).sum + (dataBytes p o files).flatten.length +
    (rowLines p.delimiter p.quote t.table).length + fuel1 + 5, fun fuel hf => ?_⟩
  obtain ⟨rs, h1, h2⟩ := csvFiles_hold hp files g1 fuel (by omega)
  have hok := csvFiles_headers hp files g1
  have hlen : files.length = stores.length := by simpa using congrArg List.length g2
  obtain ⟨k, hfail⟩ : ∃ k, FailsAfter (lineMachine unicodeCodec (storeSrc z) (csvDecode p) fuel)
      (openLines unicodeCodec (storeSrc z) fuel none s)
      (((rowLines p.delimiter p.quote t.table).take k).map fun b => (⟨0, b⟩ : Record)) e := by
    rcases hcut fuel (by omega) with h | ⟨r, k, h, _, hy⟩
    · exact ⟨0, Or.inl ⟨h, by simp⟩⟩
    · exact ⟨k, Or.inr ⟨r, h, hy⟩⟩
  obtain ⟨k', hk'⟩ := dataRows_take o files.length (rowLines p.delimiter p.quote t.table) k
  have hsub : ∀ row ∈ dataRows o files.length ((rowLines p.delimiter p.quote t.table).take k),
      row ∈ (rowLines p.delimiter p.quote t.table) := by
    intro row hrow
    have : row ∈ (rowLines p.delimiter p.quote t.table).take k := by
      unfold dataRows at hrow
      split at hrow
      · exact hrow
      · split at hrow
        · exact hrow
        · exact List.mem_of_mem_drop hrow
    exact List.mem_of_mem_take this
  have hlast : (dataRows o files.length ((rowLines p.delimiter p.quote t.table).take k)).length ≤
      (rowLines p.delimiter p.quote t.table).length := by
    have : (dataRows o files.length ((rowLines p.delimiter p.quote t.table).take k)).length ≤
        ((rowLines p.delimiter p.quote t.table).take k).length := by
      unfold dataRows
      split
      · exact Nat.le_refl _
      · split
        · exact Nat.le_refl _
        · simp
    rw [List.length_take] at this
    omega
  refine ⟨(tableRows o (stores.map fun t => t.table)).length + k',
    dataBytes p o files ++ [dataRows o files.length ((rowLines p.delimiter p.quote t.table).take k)],
    Nat.le_add_right _ _, ?_, ?_, ?_⟩
  · rw [List.flatten_append, List.map_append, f1, datasetRows_tables, g2, hk']
    have : tableRows o ((stores ++ [t]).map fun t => t.table) =
        tableRows o (stores.map fun t => t.table) ++ dataRows o files.length t.table.values := by
      simp [tableRows, List.zipIdx_append, hlen]
    rw [this, List.take_length_add_append]
    simp only [List.flatten_cons, List.flatten_nil, List.append_nil]
    rw [List.map_take, ← dataRows_map, c1]
  · intro row hrow
    rw [List.flatten_append] at hrow
    rcases List.mem_append.1 hrow with h | h
    · exact f2 row h
    · simp only [List.flatten_cons, List.flatten_nil, List.append_nil] at h
      exact c2 row (hsub row h)
  · have e2 : ((stores ++ [t]).map (fun t => t.store) ++ later).map (Store.openWith z w (openLines unicodeCodec (storeSrc z) fuel none)) =
        rs.map Res.ok ++ openLines unicodeCodec (storeSrc z) fuel none s ::
          later.map (Store.openWith z w (openLines unicodeCodec (storeSrc z) fuel none)) := by
      rw [List.map_append, List.map_append, List.map_append, g3, h1]
      simp [Store.openWith, ho]
    unfold csvStoreCore
    rw [e2]
    generalize later.map (Store.openWith z w (openLines unicodeCodec (storeSrc z) fuel none)) = more
    generalize openLines unicodeCodec (storeSrc z) fuel none s = x at hfail
    have epoch : ∀ hist, (csvCoreOver unicodeCodec (storeSrc z) p o fuel (rs.map Res.ok ++ x :: more)).ReadsTo (.fresh, hist)
        (rowInstances (dataBytes p o files ++ [dataRows o files.length ((rowLines p.delimiter p.quote t.table).take k)]))
        (.err .dataReader) := by
      intro hist
      obtain ⟨rs', y, more', d1, d2, d3⟩ := data_rows_cut o (lineMachine unicodeCodec (storeSrc z) (csvDecode p) fuel) rs _
        e he2 x _ hfail more h2 hok (by
          intro h hh hdr hx
          refine hheader h hh hdr ?_
          rw [List.getElem?_map] at hx ⊢
          rw [List.getElem?_take] at hx
          split at hx
          · exact hx
          · cases hx) (by
          intro hs h xs hh hx
          cases files with
          | nil => cases hx
          | cons f fs =>
            simp only [List.map_cons, List.head?_cons, Option.some.injEq] at hx
            cases stores with
            | nil => cases g2
            | cons t' ts =>
              simp only [List.map_cons, List.cons.injEq] at g2
              rcases hsingle hs h t' hh rfl with h | h
              · exact Or.inl h
              · right
                rw [← hx, List.length_map]
                rw [← g2.1, ← (sheet_fields hp (g1 f (by simp)).sheet).1, List.length_map] at h
                exact h) hist
      have hd : ((files.map fun f => (rowLines p.delimiter p.quote f.table).map fun b => (⟨0, b⟩ : Record)).zipIdx.map
          (fun q => dataRows o q.2 q.1)) = (dataBytes p o files).map (fun xs => xs.map fun b => (⟨0, b⟩ : Record)) := by
        unfold dataBytes
        rw [List.zipIdx_map, List.map_map, List.map_map]
        apply List.map_congr_left
        intro q _
        simp only [Function.comp_apply, Prod.map]
        exact dataRows_map _ o q.2 _
      rw [hd] at d2
      rw [List.length_map, dataRows_map] at d3
      have := (core_rows_fail _ rs' _ _ e he y d3 (more'.map someReader) d2 fuel (by omega)).first
      have key : ∀ (xs : List Inst) (c : CoreState (LineReader unicodeCodec (storeSrc z) fuel)) (t : Res (Option Inst)),
          (coreReader (lineMachine unicodeCodec (storeSrc z) (csvDecode p) fuel)
            (openEpoch o (lineMachine unicodeCodec (storeSrc z) (csvDecode p) fuel) (rs.map Res.ok ++ x :: more) hist) fuel).ReadsTo c xs t →
          (csvCoreOver unicodeCodec (storeSrc z) p o fuel (rs.map Res.ok ++ x :: more)).ReadsTo (c, hist) xs t := by
        intro xs
        induction xs with
        | nil => intro c t h; exact h
        | cons x xs ih => intro c t h; exact ⟨h.1, ih _ _ h.2⟩
      refine key _ _ _ ?_
      have e1 := openEpoch_split o (lineMachine unicodeCodec (storeSrc z) (csvDecode p) fuel) (rs.map Res.ok ++ x :: more) hist rs' y more' d1
      exact (congrArg (fun l => (coreReader (lineMachine unicodeCodec (storeSrc z) (csvDecode p) fuel) l fuel).ReadsTo .fresh
        (rowInstances (dataBytes p o files ++ [dataRows o files.length ((rowLines p.delimiter p.quote t.table).take k)]))
        (.err .dataReader)) e1).mpr this
    exact ⟨epoch [], fun s => epoch _⟩

/-- The core reader of a CSV reader with a store that was cut. -/
theorem csvCore_cut {z : Inflater} {w : World} {p : CsvParams} {o : CsvOpts} (hp : Plainly p o) (stores : List CsvStore)
    (hg : ∀ t ∈ stores, t.Good z w p) (t : CsvStore) (ht : t.Cut z w p)
    (hsingle : o.singleHeader = true → ∀ h t, o.headerRow = some h → stores.head? = some t →
      o.columnNames ≠ [] ∨ h < t.table.values.length) (later : List Store) :
    ∃ fuel0, ∀ fuel, fuel0 ≤ fuel → ∃ k xss, (tableRows o (stores.map fun t => t.table)).length ≤ k ∧
      xss.flatten.map (rowFields o.tok) = (tableRows o ((stores ++ [t]).map fun t => t.table)).take k ∧
      (∀ row ∈ xss.flatten, tokenize o.tok row = ((rowFields o.tok row).map (cutField o.tok.maxField), .ok ())) ∧
      (csvStoreCore unicodeCodec z w p o none fuel ((stores ++ [t]).map (fun t => t.store) ++ later)).Breaks
        (rowInstances xss) .dataReader :=
  csvCore_fails hp stores hg t ht.sheet .inflateError rfl (by decide)
    (cut_lines ht.stored p (crlfSafe_ok hp _) (sheet_linesOk hp ht.sheet).markFree (sheet_rowsOf hp ht.sheet)) hsingle later

/-- The core reader of a RecordIO-protobuf reader with a store that was cut. -/
theorem protoCore_cut {z : Inflater} {w : World} (stores : List ProtoStore) (hg : ∀ t ∈ stores, t.Good z w) (t : ProtoStore)
    (ht : t.Cut z w) (later : List Store) :
    ∃ fuel0, ∀ fuel, fuel0 ≤ fuel → ∃ k, k ≤ t.frames.length ∧ ∀ is,
      InstancesBefore (stores.map (fun t => t.frames) ++ [t.frames.take k]) is →
      (protoStoreCore z w fuel (stores.map (fun t => t.store) ++ t.store :: later)).Breaks (number [] is) .dataReader := by
  obtain ⟨fuel0, h⟩ := protoStoreCore_stops stores hg t.store later
  obtain ⟨s, fuel1, h1, h2⟩ := cut_frames ht
  refine ⟨fuel0 + t.frames.length + fuel1, fun fuel hf => ?_⟩
  obtain ⟨k, hk, hy⟩ := h2 fuel (by omega)
  refine ⟨k, hk, fun is hi => h fuel (t.frames.take k) (by rw [List.length_take]; omega) .inflateError
    (.records ((t.frames.take k).map fun x => ⟨x.kind, x.payload⟩) (some .inflateError)) rfl
    (fun k => by simp [items]) (fun k => rfl) rfl ?_ is hi⟩
  simp only [Store.openWith, h1]
  exact hy

end Mlio
