import Verif.Proofs.CutImages
import Verif.Proofs.ImageReader
import Verif.Props.StoreReaders
import Verif.Props.EndToEnd

/-!
# C80: from data stores to examples of images
-/

namespace Mlio
open Spec

/-- **C80**, partial: for every dataset of images in data stores – in memory, in files, memory mapped or not, or in S3, plain or
compressed – with every choice of the options, under every schedule, in every epoch: what the reader has delivered are the first
of the deliverable batches of the selected images, in the order of the epoch, the centre of each good image in its row; when
it has signalled the end, it is all of them, and then no bad image was to be reported; it fails only if an image is bad and
that is to be an error.

Missing: empty files that are not mapped and empty objects (`C80_empty_file_violated`), images of 2 GiB and more, and what C65
leaves open about OpenCV. -/
theorem C80_files_partial (z : Inflater) (w : World) (R : Rng) (hR : R.Lawful) (o : ReadOptions) (cv : Cv) (hcv : CvOk cv)
    (p : ImgParams) (stores : List ImageStore) (hg : ∀ t ∈ stores, t.Good z w)
    (hs : Supported cv p (stores.map fun t => t.bytes)) (hlen : stores.length < 2 ^ 64 - 1)
    (b : Nat) (hb : 0 < b) (l : LastHandling) (hl : l ≠ .padWarn) (P Q : Nat) (hP : 0 < P) :
    ∃ fuel0, ∀ fuel, fuel0 ≤ fuel → ∀ r,
      makeInstanceReader R o (imageCore z w false fuel (stores.map fun t => t.store)) = some r →
      ∀ st : PState (batched b l r) ImgExample,
      Reachable P Q (toDecode (imageDecode cv p (Inst.load z w fuel (stores.map fun t => t.store)))) st →
      ∃ ms, EpochOrder o (selected o (stores.map fun t => t.bytes)) ms ∧
        (∀ (i : Nat) ex, (delivered st.out)[i]? = some ex →
          ∃ q, (deliverable (goodImages cv p) p.bad (batches b l ms))[i]? = some q ∧ HoldsImages cv p q ex) ∧
        (.ok none ∈ st.out →
          (delivered st.out).length = (deliverable (goodImages cv p) p.bad (batches b l ms)).length ∧
          (p.bad = .error → ∀ q ∈ batches b l ms, goodImages cv p q = true)) ∧
        (∀ e, .err e ∈ st.out → (e = .invalidInstance ∨ e = .invalidArgument) ∧ p.bad = .error ∧
          ∃ q ∈ batches b l ms, goodImages cv p q = false) ∧
        ∀ w, .ub w ∉ st.out := by
  refine ⟨stores.length + (stores.map fun t => t.bytes.length).sum + 2, fun fuel hf r hm st hr => ?_⟩
  have hload : ∀ (k : Nat) (t : ImageStore), stores[k]? = some t → t.store.load z w fuel = .ok t.bytes := by
    intro k t hk
    have hmem := List.mem_of_getElem? hk
    refine store_load _ (hg t hmem) _ ?_
    have : t.bytes.length ≤ (stores.map fun t => t.bytes.length).sum :=
      length_le_sum _ _ (List.mem_map.2 ⟨t, hmem, rfl⟩)
    omega
  obtain ⟨f, hfdef⟩ : ∃ f : Inst → Bytes, ∀ i, f i = ((stores[i.store]?).map fun t => t.bytes).getD [] := ⟨_, fun _ => rfl⟩
  have hmap : ((List.range (stores.map fun t => t.store).length).map fun k => (⟨k, 0, none⟩ : Inst)).map f =
      stores.map fun t => t.bytes := by
    rw [List.map_map]
    refine List.ext_getElem? fun k => ?_
    rw [List.getElem?_map, List.getElem?_map, List.length_map]
    by_cases hk : k < stores.length
    · rw [List.getElem?_range hk]
      simp [hfdef, List.getElem?_eq_getElem hk]
    · rw [List.getElem?_eq_none (by simpa using Nat.le_of_not_lt hk), List.getElem?_eq_none (by omega)]
      rfl
  have hren := imageCore_whole z w fuel (stores.map fun t => t.store) (by rw [List.length_map]; omega)
  have hlen' : ((List.range (stores.map fun t => t.store).length).map fun k => (⟨k, 0, none⟩ : Inst)).length < 2 ^ 64 - 1 := by
    rw [List.length_map, List.length_range, List.length_map]; exact hlen
  have hload' : ∀ i ∈ (List.range (stores.map fun t => t.store).length).map fun k => (⟨k, 0, none⟩ : Inst),
      Inst.load z w fuel (stores.map fun t => t.store) i = .ok (f i) := by
    intro i hi
    obtain ⟨k, hk, rfl⟩ := List.mem_map.1 hi
    rw [List.mem_range, List.length_map] at hk
    simp only [Inst.load, List.getElem?_map, hfdef, List.getElem?_eq_getElem hk, Option.map_some, Option.getD_some]
    exact hload k _ (List.getElem?_eq_getElem hk)
  have := image_epochs R hR o cv hcv p _ _ hren _ f hload' (hmap.symm ▸ hs) hlen' b hb l hl P Q hP r hm st hr
  rw [hmap] at this
  exact this

/-- The images in the records of a dataset. -/
def framedImages (is : List (Nat × Option Bytes)) : List Bytes := is.map fun i => i.2.getD []

/-- **C80**, partial: the same for a reader of images in RecordIO files, each in one frame or split over several.
Missing: what C65 and C69 leave open. -/
theorem C80_framed_partial (z : Inflater) (w : World) (R : Rng) (hR : R.Lawful) (o : ReadOptions) (cv : Cv) (hcv : CvOk cv)
    (p : ImgParams) (stores : List ProtoStore) (hg : ∀ t ∈ stores, t.Good z w) (is : List (Nat × Option Bytes))
    (hi : FramedInstances (stores.map fun t => t.frames) is)
    (hs : Supported cv p (framedImages is)) (hlen : is.length < 2 ^ 64 - 1)
    (b : Nat) (hb : 0 < b) (l : LastHandling) (hl : l ≠ .padWarn) (P Q : Nat) (hP : 0 < P) :
    ∃ fuel0, ∀ fuel, fuel0 ≤ fuel → ∀ r,
      makeInstanceReader R o (imageCore z w true fuel (stores.map fun t => t.store)) = some r →
      ∀ st : PState (batched b l r) ImgExample,
      Reachable P Q (toDecode (imageDecode cv p (Inst.load z w fuel (stores.map fun t => t.store)))) st →
      ∃ ms, EpochOrder o (selected o (framedImages is)) ms ∧
        (∀ (i : Nat) ex, (delivered st.out)[i]? = some ex →
          ∃ q, (deliverable (goodImages cv p) p.bad (batches b l ms))[i]? = some q ∧ HoldsImages cv p q ex) ∧
        (.ok none ∈ st.out →
          (delivered st.out).length = (deliverable (goodImages cv p) p.bad (batches b l ms)).length ∧
          (p.bad = .error → ∀ q ∈ batches b l ms, goodImages cv p q = true)) ∧
        (∀ e, .err e ∈ st.out → (e = .invalidInstance ∨ e = .invalidArgument) ∧ p.bad = .error ∧
          ∃ q ∈ batches b l ms, goodImages cv p q = false) ∧
        ∀ w, .ub w ∉ st.out := by
  obtain ⟨files, h1, h2, h3⟩ := protoStores_files stores hg
  obtain ⟨fuel0, hy⟩ := protoCore_renews files h1 is (by
    unfold FramedInstances at hi
    rw [← h2, List.map_map] at hi
    exact hi)
  refine ⟨fuel0, fun fuel hf r hm st hr => ?_⟩
  have hcore : imageCore z w true fuel (stores.map fun t => t.store) = protoCore (storeIn z) fuel (files.map fun f => f.opened) :=
    h3 fuel
  have hren : (imageCore z w true fuel (stores.map fun t => t.store)).Renews (number [] is) := by
    rw [hcore]; exact hy fuel hf
  have hsome : ∀ i ∈ number [] is, ∃ x, i.bits = some x :=
    number_some is (assembles_some hi (items_records _ 0)) []
  have hflat : (number [] is).map (fun i => i.bits.getD []) = framedImages is := number_bits is []
  have := image_epochs R hR o cv hcv p _ _ hren
    (Inst.load z w fuel (stores.map fun t => t.store)) (fun i => i.bits.getD []) (by
      intro i hi
      obtain ⟨x, hx⟩ := hsome i hi
      simp only [Inst.load, hx, Option.getD_some])
    (by rw [hflat]; exact hs)
    (by rw [← List.length_map (fun i : Inst => i.bits.getD []), hflat, framedImages, List.length_map]; exact hlen)
    b hb l hl P Q hP r hm st hr
  rw [hflat] at this
  exact this

/-- **C80**: whatever the data stores hold, if bad images do not skip batches, an epoch ends only if every data store in its
batches could be loaded: a file that has gone or cannot be opened, or a gzip file (of less than 2 GiB up to that place) that was
cut or damaged, is never taken for a bad image or left out. -/
theorem C80_unreadable (z : Inflater) (w : World) (R : Rng) (hR : R.Lawful) (o : ReadOptions) (cv : Cv) (p : ImgParams)
    (hbad : p.bad ≠ .skip ∧ p.bad ≠ .skipWarn) (stores : List Store) (hlen : stores.length < 2 ^ 64 - 1)
    (b : Nat) (hb : 0 < b) (l : LastHandling) (hl : l ≠ .padWarn) (P Q : Nat) (hP : 0 < P)
    (fuel : Nat) (hf : stores.length < fuel) (r : Machine Inst)
    (hm : makeInstanceReader R o (imageCore z w false fuel stores) = some r) (st : PState (batched b l r) ImgExample)
    (hr : Reachable P Q (toDecode (imageDecode cv p (Inst.load z w fuel stores))) st) :
    ∃ ks, EpochOrder o (selected o (List.range stores.length)) ks ∧
      (.ok none ∈ st.out → ∀ q ∈ batches b l ks, ∀ k ∈ q.instances,
        ∃ s x, stores[k]? = some s ∧ s.load z w fuel = .ok x ∧ ¬ CannotOpen w s ∧ ∀ c, c.length < 2 ^ 31 → ¬ CutGzip z w s c) := by
  obtain ⟨ys, h1, _, h3, _, _⟩ := dataset_epochs R hR o _ _ (imageCore_whole z w fuel stores hf) (by simpa using hlen)
    b hb l hl r hm P Q hP _ st hr
  have hmem : ∀ i ∈ ys, ∃ k, k < stores.length ∧ i = ⟨k, 0, none⟩ := by
    intro i hi
    obtain ⟨k, hk, rfl⟩ := List.mem_map.1 (selected_mem o _ i (epochOrder_mem o _ _ h1 i hi))
    exact ⟨k, List.mem_range.1 hk, rfl⟩
  have hst : ((List.range stores.length).map fun k => (⟨k, 0, none⟩ : Inst)).map (fun i => i.store) = List.range stores.length := by
    rw [List.map_map]
    exact (List.map_congr_left fun _ _ => rfl).trans (List.map_id _)
  refine ⟨ys.map fun i => i.store, ?_, fun hx q' hq' k hk => ?_⟩
  · rw [← hst, selected_map]
    exact epochOrder_map _ o _ _ h1
  · rw [batches_map] at hq'
    obtain ⟨q, hq, rfl⟩ := List.mem_map.1 hq'
    obtain ⟨i, hi, rfl⟩ := List.mem_map.1 hk
    obtain ⟨k, hk', rfl⟩ := hmem i (batches_mem b hb l ys q hq i hi)
    obtain ⟨x, hx'⟩ := (h3 hx).2 q hq
    have : ∃ y, imageDecode cv p (Inst.load z w fuel stores) q = .ok y := by
      unfold toDecode at hx'
      split at hx'
      · exact ⟨_, by assumption⟩
      · cases hx'
      · cases hx'
    obtain ⟨y, hy⟩ := this
    have : ∃ y, decodeInsts cv p (Inst.load z w fuel stores) (batchStride p) q.instances
        (List.replicate (q.size * batchStride p) 0) 0 0 = .ok y := by
      unfold imageDecode at hy
      split at hy
      · exact ⟨_, by assumption⟩
      · exact ⟨_, by assumption⟩
      · cases hy
      · cases hy
    obtain ⟨y, hy⟩ := this
    obtain ⟨x, hx⟩ := decodeInsts_loads cv p _ _ hbad _ _ _ _ _ hy _ hi
    have hx : (stores[k]).load z w fuel = .ok x := by simpa only [Inst.load, List.getElem?_eq_getElem hk'] using hx
    refine ⟨stores[k], x, List.getElem?_eq_getElem hk', hx, fun h => ?_, fun c hc h => ?_⟩
    · obtain ⟨e, he⟩ := cannot_load (z := z) h fuel
      rw [hx] at he
      cases he
    · rcases cut_load h hc fuel with he | ⟨_, he⟩ <;> rw [hx] at he <;> cases he

/-- C80: a gzip file that was cut or damaged is reported as such. -/
theorem C80_damaged (z : Inflater) (w : World) (s : Store) (c : Bytes) (h : CutGzip z w s c) (hc : c.length < 2 ^ 31) (fuel : Nat)
    (hf : c.length + 1 < fuel) : s.load z w fuel = .err .dataReader := by
  rcases cut_load h hc fuel with he | ⟨h1, _⟩
  · exact he
  · omega

/-- **C80** is violated: of a gzip file that was cut in its header (the toy format has a header of one byte, and then a number of
repetitions), the image reader loads no bytes, without an error, and so takes it for a bad image: see `C75_truncated_violated`. -/
theorem C80_truncated_violated : ∃ (z : Inflater) (all : Bytes), all ≠ [] ∧ (¬ ∃ ms c, GzFile z ms all c) ∧
    ∀ w fuel, 0 < fuel → (Store.memory all .gzip).load z w fuel = .ok [] := by
  refine ⟨toyInflater, [31, 1], by decide, ?_, fun w fuel hf => ?_⟩
  · rintro ⟨ms, c, h⟩
    obtain ⟨⟨s', h1⟩, _⟩ := gzFile_after h
    have : (after toyInflater toyInflater.init true [31, 1]).map (·.2) = some false := by decide
    rw [h1] at this
    simp at this
  · obtain ⟨fuel, rfl⟩ : ∃ k, fuel = k + 1 := ⟨fuel - 1, by omega⟩
    rfl

/-- C80: a file that is not there is reported as such. -/
theorem C80_missing (z : Inflater) (w : World) (path : Bytes) (m : Bool) (c : Compression) (h : w.files path = none) (fuel : Nat) :
    (Store.file path m c).load z w fuel = .err .dataReader := by
  simp [Store.load, Store.openRead, Store.raw, h]

theorem loadLoop_empty (m : InStream) : ∀ (fuel : Nat) (s : m.σ) (size : Option Nat), (size = none ∨ size = some 0) →
    loadLoop m (some 0) fuel s [] size = .err .diverges
  | 0, _, _, _ => rfl
  | fuel + 1, s, size, hs => by
    have hn : nextBlockSize true 0 size = 0 := by rcases hs with rfl | rfl <;> rfl
    rw [loadLoop]
    simp only [Option.isSome_some, Option.getD_some, hn, List.length_nil, Nat.sub_self, gFill, if_true, Bool.false_eq_true,
      if_false, List.append_nil]
    exact loadLoop_empty m fuel s (some 0) (Or.inr rfl)

/-- C80 fails for an empty file that is not memory mapped: the reader loads it for ever, instead of taking it for a bad image. -/
theorem C80_empty_file_violated (z : Inflater) (w : World) (path : Bytes) (sched : List Nat) (h : w.files path = some ([], sched))
    (fuel : Nat) (cv : Cv) (p : ImgParams) :
    (∃ s, (Store.file path false .none).openRead z w = .ok s) ∧
    ∀ size, imageDecode cv p (Inst.load z w fuel [.file path false .none]) ⟨0, [⟨0, 0, none⟩], size⟩ = .err .diverges := by
  have e : ∃ s, (Store.file path false .none).openRead z w = .ok (.plain (.file [] s)) := by
    simp [Store.openRead, Store.raw, h, makeInflate, Store.compression]
  obtain ⟨s, e⟩ := e
  have hload : (Store.file path false .none).load z w fuel = .err .diverges := by
    unfold Store.load
    rw [e]
    exact congrArg loadHandle (loadLoop_empty (storeIn z) fuel (.plain (.file [] s) : StoreStm z) none (Or.inl rfl))
  refine ⟨⟨_, e⟩, fun size => ?_⟩
  simp [imageDecode, decodeInsts, Inst.load, hload]

/-- **C80**: the schema of an image reader has one attribute, of bytes, in the order batch, height, width, channels – the
shape of the rows in C80 –, unless the rows are too large for strides. -/
theorem C80_schema (batch : Nat) (p : ImgParams) (hfit : StridesFit [batch, p.height, p.width, p.channels]) : ∃ s a, imageSchema batch p = .ok s ∧ s.attrs = [a] ∧
    a.name = [118, 97, 108, 117, 101] ∧ a.dt = .uint8 ∧ a.sparse = false ∧ a.shape = [batch, p.height, p.width, p.channels] ∧
    numElements a.shape = batch * (p.height * (p.width * p.channels)) := by
  obtain ⟨ss, h⟩ : ∃ ss, makeAttr [118, 97, 108, 117, 101] .uint8 [batch, p.height, p.width, p.channels] [] false =
      .ok ⟨[118, 97, 108, 117, 101], .uint8, [batch, p.height, p.width, p.channels], ss, false⟩ := by
    refine ⟨rowMajor [batch, p.height, p.width, p.channels], ?_⟩
    unfold makeAttr tensorStrides
    simp only [List.isEmpty_nil, if_true, defaultStrides_rowMajor _ hfit]
  refine ⟨_, _, by unfold imageSchema; rw [h]; rfl, rfl, rfl, rfl, rfl, rfl, ?_⟩
  simp [numElements, Nat.mul_assoc]

example : StridesFit [64, 224, 224, 3] := by decide

/-! ## Samples -/

/-- An image in a file, one that is too small compressed in memory, an empty one in memory. -/
def sampleImageStores : List ImageStore :=
  [⟨[3, 7], .memory [3, 7] .none⟩, ⟨[1, 9], .memory (toyZip [1, 9]) .gzip⟩, ⟨[2, 8, 1], .file [105] false .none⟩,
    ⟨[], .memory [] .none⟩]

def imageWorld : World where
  files p := if p = [105] then some ([2, 8, 1], [1, 1, 1]) else if p = [101] then some ([], []) else none
  objects _ _ _ := none

/-- The hypotheses of `C80_files_partial` hold for the sample, of which two are good images. -/
example : (∀ t ∈ sampleImageStores, t.Good toyInflater imageWorld) ∧
    Supported exCv { channels := 1, height := 2, width := 1, bad := .pad } (sampleImageStores.map fun t => t.bytes) ∧
    (∀ t ∈ sampleImageStores, t.store.load toyInflater imageWorld 9 = .ok t.bytes) ∧
    toDecode (imageDecode exCv { channels := 1, height := 2, width := 1, bad := .pad }
      (Inst.load toyInflater imageWorld 9 (sampleImageStores.map fun t => t.store)))
      ⟨0, [⟨0, 0, none⟩, ⟨1, 0, none⟩, ⟨2, 0, none⟩, ⟨3, 0, none⟩], 4⟩ = .ok (some ⟨[7, 7, 8, 8, 0, 0, 0, 0], 2⟩) := by
  have hg : ∀ t ∈ sampleImageStores, t.Good toyInflater imageWorld := by
    intro t ht
    simp only [sampleImageStores, List.mem_cons, List.not_mem_nil, or_false] at ht
    rcases ht with rfl | rfl | rfl | rfl
    · exact ⟨⟨_, rfl, by decide, Or.inl ⟨rfl, rfl⟩⟩, by decide, by simp⟩
    · exact ⟨toy_holds (by decide) (by decide), by decide, by simp⟩
    · exact ⟨⟨_, ⟨[1, 1, 1], rfl⟩, by decide, Or.inl ⟨rfl, rfl⟩⟩, by decide, by simp⟩
    · exact ⟨⟨_, rfl, by decide, Or.inl ⟨rfl, rfl⟩⟩, by decide, fun _ => Or.inl rfl⟩
  have hl : ∀ t ∈ sampleImageStores, t.store.load toyInflater imageWorld 9 = .ok t.bytes := by
    intro t ht
    refine store_load _ (hg t ht) _ ?_
    simp only [sampleImageStores, List.mem_cons, List.not_mem_nil, or_false] at ht
    rcases ht with rfl | rfl | rfl | rfl <;> decide
  refine ⟨hg, ⟨by decide, by decide, by decide, by decide, by simp, fun _ _ _ _ => ⟨by simp, by simp⟩⟩, hl, ?_⟩
  unfold toDecode
  rw [imageDecode_loaded _ _ _ (fun i => ((sampleImageStores[i.store]?).map fun t => t.bytes).getD []) _ (by
    intro i hi
    simp only [List.mem_cons, List.not_mem_nil, or_false] at hi
    rcases hi with rfl | rfl | rfl | rfl 
    · exact hl ⟨[3, 7], .memory [3, 7] .none⟩ (by simp [sampleImageStores])
    · exact hl ⟨[1, 9], .memory (toyZip [1, 9]) .gzip⟩ (by simp [sampleImageStores])
    · exact hl ⟨[2, 8, 1], .file [105] false .none⟩ (by simp [sampleImageStores])
    · exact hl ⟨[], .memory [] .none⟩ (by simp [sampleImageStores]))]
  rfl

/-- The hypotheses of `C80_framed_partial` hold for the sample of C74. -/
example : FramedInstances (sampleProtoStores.map fun t => t.frames) [(0, some [1, 7, 5]), (1, some [2, 9, 8])] ∧
    Supported exCv { channels := 1, height := 2, width := 1, bad := .error }
      (framedImages [(0, some [1, 7, 5]), (1, some [2, 9, 8])]) :=
  ⟨.complete (.split [] (.eof rfl)), by decide, by decide, by decide, by decide, by simp, fun _ _ _ _ => ⟨by simp, by simp⟩⟩

/-- A gzip file of an image that was cut: the hypotheses of `C80_damaged` are met, and the reader of the model fails. -/
example : (Store.memory [31, 1, 3, 1, 7] .gzip).load toyInflater imageWorld 9 = .err .dataReader := by
  refine C80_damaged toyInflater imageWorld (.memory [31, 1, 3, 1, 7] .gzip) [3, 7] ⟨[31, 1, 3, 1, 7], rfl, by decide, rfl, ?_, rfl, ?_⟩ (by decide) 9 (by decide)
  · rintro ⟨ms, c, h⟩
    obtain ⟨⟨s', h1⟩, _⟩ := gzFile_after h
    have : (after toyInflater toyInflater.init true [31, 1, 3, 1, 7]).map (·.2) = some false := by decide
    rw [h1] at this
    simp at this
  · intro s blocks hs hd
    cases hs
    rw [delivers_fun hd (memory_block (by decide) (by decide))]
    exact outspoken_of_check (by decide)

/-- A missing file, and an empty one. -/
example : imageWorld.files [120] = none ∧ imageWorld.files [101] = some ([], []) := by decide

end Mlio
