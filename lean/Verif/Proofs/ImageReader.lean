import Verif.Spec.ImageReader
import Verif.Props.Image
import Verif.Props.StoreReaders

/-!
# The image reader as a whole: proofs
-/

namespace Mlio
open Spec

/-! ## Loading a data store -/

theorem gFill_supplies {m : InStream} {B : Nat} (fuel : Nat) : ∀ (s : m.σ) (data : Bytes) (r : Nat), r ≤ fuel → r ≤ B →
    SuppliesTo B m s data →
    ∃ b e s' data', gFill m fuel s r = (.ok (b, e), s') ∧ SuppliesTo B m s' data' ∧ data = b ++ data' ∧
      (e = true → data' = []) ∧ (e = false → b.length = r) := by
  induction fuel with
  | zero =>
    intro s data r hr _ hd
    have : r = 0 := by omega
    subst this
    exact ⟨[], false, s, data, by simp [gFill], hd, rfl, by simp, by simp⟩
  | succ fuel ih =>
    intro s data r hr hB hd
    by_cases h0 : r = 0
    · subst h0
      exact ⟨[], false, s, data, by simp [gFill], hd, rfl, by simp, by simp⟩
    · obtain ⟨x, data1, h1, h2, h3, h4, h5⟩ := hd.step (n := r) (by omega)
      generalize hrd : m.read s r = os1 at h1 h5
      obtain ⟨o, s1⟩ := os1
      simp only at h1 h5
      subst h1
      by_cases hx : x = []
      · subst hx
        refine ⟨[], true, s1, data1, by simp [gFill, h0, hrd], h5, h2, fun _ => ?_, by simp⟩
        have : data = [] := (h4 rfl).resolve_left h0
        rw [this] at h2
        simpa using h2.symm
      · have hlen : 0 < x.length := List.length_pos_iff.2 hx
        obtain ⟨b, e, s2, data2, g1, g2, g3, g4, g5⟩ := ih s1 data1 (r - x.length) (by omega) (by omega) h5
        refine ⟨x ++ b, e, s2, data2, ?_, g2, by rw [h2, g3, List.append_assoc], g4,
          fun he => by rw [List.length_append, g5 he]; omega⟩
        simp only [gFill, if_neg h0, hrd, if_neg (show ¬ x.length = 0 by omega), g1]

theorem loadLoop_spec {m : InStream} {B : Nat} (total : Option Nat) (hB : 0x100000 ≤ B) (ht : ∀ t, total = some t → t ≤ B) :
    ∀ (fuel : Nat) (s : m.σ) (data filled : Bytes) (size : Option Nat),
    (match size with
      | some n => filled.length = n ∧ 0 < n
      | none => filled = [] ∧ ∀ t, total = some t → 0 < t) →
    2 * (filled.length + data.length) ≤ B → SuppliesTo B m s data → data.length + 1 < fuel →
    loadLoop m total fuel s filled size = .ok (filled ++ data)
  | 0, _, _, _, _, _, _, _, hf => by omega
  | fuel + 1, s, data, filled, size, hs, hd, hsup, hf => by
    generalize hsz : nextBlockSize total.isSome (total.getD 0) size = size'
    have hpos : filled.length < size' ∧ size' ≤ B := by
      unfold nextBlockSize at hsz
      cases size with
      | some n => simp only at hs hsz; omega
      | none =>
        simp only at hs hsz
        rw [hs.1]
        simp only [List.length_nil]
        cases total with
        | none => simp at hsz; omega
        | some t =>
          have := hs.2 t rfl
          have := ht t rfl
          simp at hsz
          omega
    unfold loadLoop
    simp only [hsz]
    obtain ⟨got, e, s', data', h1, h2, h3, h4, h5⟩ :=
      gFill_supplies (size' - filled.length) s data (size' - filled.length) (Nat.le_refl _) (by omega) hsup
    simp only [h1]
    have hlen : data.length = got.length + data'.length := by rw [h3]; simp
    cases e with
    | true =>
      simp only [if_true]
      rw [h3, h4 rfl]
      simp
    | false =>
      simp only [Bool.false_eq_true, if_false]
      have hg := h5 rfl
      rw [loadLoop_spec total hB ht fuel s' data' (filled ++ got) (some size')
        ⟨by simp only [List.length_append]; omega, by omega⟩ (by simp only [List.length_append]; omega) h2 (by omega),
        List.append_assoc, h3]

theorem raw_total {z : Inflater} {w : World} {st : Store} {x : Bytes} {s : RawStream} (h : BytesBehind w st x)
    (hr : st.raw w = .ok s) : (StoreStm.plain (z := z) s).total = some x.length := by
  cases st with
  | file path mm c =>
    obtain ⟨sched, h⟩ := h
    simp only [Store.raw, h] at hr
    cases mm <;> cases hr <;> rfl
  | memory chunk c =>
    simp only [BytesBehind] at h
    subst h
    cases hr
    rfl
  | object uri version c =>
    obtain ⟨b, k, h1, h2⟩ := h
    simp only [Store.raw, ((C52_object_uri uri).1 b k).2 h1, h2] at hr
    cases hr
    rfl

/-- What loading a data store gives. -/
theorem store_load {z : Inflater} {w : World} (t : ImageStore) (hg : t.Good z w) (fuel : Nat)
    (hf : t.bytes.length + 1 < fuel) : t.store.load z w fuel = .ok t.bytes := by
  obtain ⟨⟨x, hb, hx, h⟩, hsize, hempty⟩ := hg
  obtain ⟨s, h1, h2⟩ := behind_raw hb hx
  rcases h with ⟨hc, he⟩ | ⟨hc, ⟨ms, hz⟩, ha⟩
  · have hopen : t.store.openRead z w = .ok (.plain s) := by simp only [Store.openRead, h1, hc, makeInflate]
    have hsup : SuppliesTo (2 ^ 63 - 1) (storeIn z) (.plain s) x := storeIn_plain (rawRel_supplies h2)
    unfold Store.load
    rw [hopen]
    rw [← he] at h2 hsup
    have key : ∀ total, (∀ k, total = some k → 0 < k ∧ k ≤ 2 ^ 32) →
        loadHandle (loadLoop (storeIn z) total fuel (.plain s : StoreStm z) [] none) = .ok t.bytes := by
      intro total ht
      exact congrArg loadHandle (loadLoop_spec (m := storeIn z) (B := 2 ^ 63 - 1) total (by decide)
        (fun k hk => by have := (ht k hk).2; omega) fuel (.plain s : StoreStm z) t.bytes []
        none ⟨rfl, fun k hk => (ht k hk).1⟩ (by simp only [List.length_nil]; omega) hsup hf)
    have hne : t.bytes = [] → ∃ b ms, s = .memory b ms := by
      intro hnil
      rcases hempty hnil with hm | hm
      · cases hst : t.store with
        | file path mm c =>
          rw [hst] at hm h1
          simp only [InMemory, Bool.and_eq_true] at hm
          simp only [Store.raw, hm.1, if_true] at h1
          split at h1
          · cases h1
          · cases h1; exact ⟨_, _, rfl⟩
        | memory chunk c =>
          rw [hst] at h1
          simp only [Store.raw] at h1
          cases h1; exact ⟨_, _, rfl⟩
        | object uri v c => rw [hst] at hm; cases hm
      · rw [hm] at hc; cases hc
    have htot := raw_total (z := z) hb h1
    rw [← he] at htot
    have hfin : (∀ b ms, s ≠ .memory b ms) →
        loadHandle (loadLoop (storeIn z) (StoreStm.plain (z := z) s).total fuel (.plain s : StoreStm z) [] none) = .ok t.bytes := by
      intro hm
      refine key _ fun k hk => ?_
      rw [htot] at hk
      cases hk
      refine ⟨List.length_pos_iff.2 fun hnil => ?_, by omega⟩
      obtain ⟨b, ms, e⟩ := hne hnil
      exact hm b ms e
    cases s with
    | memory b ms =>
      obtain ⟨hl, p, hp, rfl, hd⟩ := h2
      simp only [StoreStm.opened, Int.toNat_natCast]
      rw [hd, List.take_of_length_le (by simp only [List.length_drop]; omega)]
    | file b fs => exact hfin (by simp)
    | object b os => exact hfin (by simp)
  · have hopen : t.store.openRead z w = .ok (.inflated (GzStream.new (m := rawIn) z s)) := by
      simp only [Store.openRead, h1, hc, makeInflate]
    have hsup := gz_raw h2 hz fun blocks hd => ha s blocks h1 hd
    unfold Store.load
    rw [hopen]
    simp only [StoreStm.opened, StoreStm.total]
    exact congrArg loadHandle (loadLoop_spec (m := storeIn z) (B := 2 ^ 32 - 1) none (by decide) (by simp) fuel
      (.inflated (GzStream.new (m := rawIn) z s) : StoreStm z) t.bytes [] none ⟨rfl, by simp⟩
      (by simp only [List.length_nil]; omega) hsup hf)

/-! ## Decoding -/

theorem decodeInsts_loaded (cv : Cv) (p : ImgParams) (load : Inst → Res Bytes) (f : Inst → Bytes) (stride : Nat) :
    ∀ (is : List Inst) (buf : Bytes) (pos num : Nat), (∀ i ∈ is, load i = .ok (f i)) →
      decodeInsts cv p load stride is buf pos num = decodeImages cv p stride (is.map f) buf pos num
  | [], _, _, _, _ => rfl
  | i :: is, buf, pos, num, h => by
    have ih := fun b q n => decodeInsts_loaded cv p load f stride is b q n fun j hj => h j (by simp [hj])
    rw [decodeInsts, h i (by simp), List.map_cons, decodeImages]
    simp only [ih]
    cases decodeCore cv p (f i) with
    | err e => rfl
    | ub w => rfl
    | ok o =>
      cases o with
      | some x => rfl
      | none => cases p.bad <;> rfl

theorem imageDecode_loaded (cv : Cv) (p : ImgParams) (load : Inst → Res Bytes) (f : Inst → Bytes) (q : Batch Inst)
    (h : ∀ i ∈ q.instances, load i = .ok (f i)) :
    imageDecode cv p load q = decodeBatchImages cv p q.size (q.instances.map f) := by
  unfold imageDecode decodeBatchImages
  rw [decodeInsts_loaded cv p load f _ _ _ _ _ h]
  cases decodeImages cv p (batchStride p) (q.instances.map f) (List.replicate (q.size * batchStride p) 0) 0 0 with
  | err e => rfl
  | ub w => rfl
  | ok o => cases o <;> rfl

/-- If bad instances do not skip the example, it has been made of instances that were all loaded. -/
theorem decodeInsts_loads (cv : Cv) (p : ImgParams) (load : Inst → Res Bytes) (stride : Nat)
    (hb : p.bad ≠ .skip ∧ p.bad ≠ .skipWarn) : ∀ (is : List Inst) (buf : Bytes) (pos num : Nat) x,
      decodeInsts cv p load stride is buf pos num = .ok x → ∀ i ∈ is, ∃ b, load i = .ok b
  | [], _, _, _, _, _ => by simp
  | i :: is, buf, pos, num, x, h => by
    rw [decodeInsts] at h
    cases hl : load i with
    | err e => rw [hl] at h; cases h
    | ub w => rw [hl] at h; cases h
    | ok b =>
      rw [hl] at h
      simp only at h
      have go : ∀ b' q n, decodeInsts cv p load stride is b' q n = .ok x → ∀ j ∈ i :: is, ∃ b, load j = .ok b := by
        intro b' q n h' j hj
        rcases List.mem_cons.1 hj with rfl | hj
        · exact ⟨b, hl⟩
        · exact decodeInsts_loads cv p load stride hb is _ _ _ x h' j hj
      cases hd : decodeCore cv p b with
      | err e => rw [hd] at h; cases h
      | ub w => rw [hd] at h; cases h
      | ok o =>
        rw [hd] at h
        cases o with
        | some y =>
          simp only at h
          split at h
          · cases h
          · split at h
            · cases h
            · exact go _ _ _ h
        | none =>
          simp only at h
          cases hp : p.bad with
          | skip => exact absurd hp hb.1
          | skipWarn => exact absurd hp hb.2
          | error => rw [hp] at h; cases h
          | pad => rw [hp] at h; exact go _ _ _ h
          | padWarn => rw [hp] at h; exact go _ _ _ h

theorem Spec.Supported.mono {cv : Cv} {p : ImgParams} {l l' : List Bytes} (h : Supported cv p l) (hl : ∀ x ∈ l', x ∈ l) :
    Supported cv p l' :=
  ⟨h.channels, h.height, h.width, h.alpha, fun hr i hi => h.header hr i (hl i hi), fun i hi => h.images i (hl i hi)⟩

/-- Decoding a batch of images. -/
theorem image_batch (cv : Cv) (hcv : CvOk cv) (p : ImgParams) (load : Inst → Res Bytes) (f : Inst → Bytes) (q : Batch Inst)
    (hl : ∀ i ∈ q.instances, load i = .ok (f i)) (hs : Supported cv p (q.instances.map f)) (hlen : q.instances.length ≤ q.size) :
    if goodImages cv p (q.map f) || p.bad == .pad || p.bad == .padWarn then
      ∃ ex, toDecode (imageDecode cv p load) q = .ok (some ex) ∧ HoldsImages cv p (q.map f) ex
    else if p.bad = .error then
      ∃ e, toDecode (imageDecode cv p load) q = .error e ∧ (e = .invalidInstance ∨ e = .invalidArgument)
    else toDecode (imageDecode cv p load) q = .ok none := by
  have hdec : toDecode (imageDecode cv p load) q =
      toDecode (fun _ : Unit => decodeBatchImages cv p q.size (q.instances.map f)) () := by
    unfold toDecode
    rw [imageDecode_loaded cv p load f q hl]
  rw [hdec]
  have hmap : (q.map f).instances = q.instances.map f := rfl
  have hsize : (q.map f).size = q.size := rfl
  have hlen' : (q.instances.map f).length ≤ q.size := by rw [List.length_map]; exact hlen
  split
  · next hc =>
    by_cases hp : p.bad = .pad ∨ p.bad = .padWarn
    · obtain ⟨ex, h1, h2, h3, h4, h5⟩ := C65_padded_partial cv hcv p q.size (q.instances.map f) hs hlen' hp _ rfl
      refine ⟨ex, by simp only [toDecode, h1], _, rfl, h2, h3, h4, fun j h6 h7 => h5 j h6 (by rw [← h3]; exact h7)⟩
    · simp only [Bool.or_eq_true, goodImages, decide_eq_true_eq, hmap, beq_iff_eq] at hc
      have hall : ∀ i ∈ q.instances.map f, GoodImage cv p i := by
        rcases hc with (hc | hc) | hc
        · exact hc
        · exact absurd (Or.inl hc) hp
        · exact absurd (Or.inr hc) hp
      obtain ⟨ex, h1, h2, h3, h4, h5⟩ := (C65_others_partial cv hcv p q.size (q.instances.map f) hs hlen').1 hall
      have hfil : (q.map f).instances.filter (fun i => @decide (GoodImage cv p i) (Classical.propDecidable _)) =
          q.instances.map f := by
        rw [hmap]
        exact List.filter_eq_self.2 fun i hi => @decide_eq_true _ (Classical.propDecidable _) (hall i hi)
      refine ⟨ex, by simp only [toDecode, h1], _, hfil.symm, h2, h3, h4, fun j h6 h7 => h5 j h6 (by rw [← h3]; exact h7)⟩
  · next hc =>
    simp only [Bool.or_eq_true, goodImages, decide_eq_true_eq, hmap, beq_iff_eq, not_or] at hc
    have hbad : ∃ i ∈ q.instances.map f, ¬ GoodImage cv p i := by
      refine Classical.byContradiction fun hn => hc.1.1 fun i hi => Classical.byContradiction fun hg => hn ⟨i, hi, hg⟩
    obtain ⟨h1, h2⟩ := (C65_others_partial cv hcv p q.size (q.instances.map f) hs hlen').2 hbad
    split
    · next he =>
      obtain ⟨e, h, hcl⟩ := h2 he
      exact ⟨e, by simp only [toDecode, h], hcl⟩
    · next he =>
      have : p.bad = .skip ∨ p.bad = .skipWarn := by
        cases hp : p.bad with
        | skip => exact Or.inl rfl
        | skipWarn => exact Or.inr rfl
        | pad => exact absurd hp hc.1.2
        | padWarn => exact absurd hp hc.2
        | error => exact absurd hp he
      simp only [toDecode, h1 this]

/-! ## Instances -/

theorem items_whole (n : Nat) : ∀ k, items k (List.replicate n .whole) =
    ((List.range' k n).map fun j => (j, Item.whole), .eof) := by
  induction n with
  | zero => intro k; rfl
  | succ n ih => intro k; simp [List.replicate_succ, items, ih, List.range'_succ]

theorem assembles_whole (l : List Nat) : Assembles .eof (l.map fun j => (j, Item.whole)) (l.map fun j => (j, none)) .eof := by
  induction l with
  | nil => exact .eof rfl
  | cons a l ih => exact .whole ih

theorem number_whole (l : List Nat) : ∀ seen, number seen (l.map fun j => (j, none)) = l.map fun j => ⟨j, 0, none⟩ := by
  induction l with
  | nil => intro _; rfl
  | cons a l ih => intro seen; simp [number, ih]

/-- Without record readers each data store is an instance. -/
theorem imageCore_whole (z : Inflater) (w : World) (fuel : Nat) (stores : List Store) (hf : stores.length < fuel) :
    (imageCore z w false fuel stores).Renews ((List.range stores.length).map fun k => ⟨k, 0, none⟩) := by
  have hfit : FitsAll (recMachine (storeIn z) recordioDecode fuel)
      (stores.map fun st => if false = true then st.openWith z w (fun s => .ok (some s.opened.reader)) else .ok none)
      (List.replicate stores.length .whole) := by
    refine ⟨Or.inl (by simp), ?_⟩
    intro i o c h1 h2
    simp only [Bool.false_eq_true, if_false, List.getElem?_map, Option.map_eq_some_iff] at h1
    obtain ⟨_, _, rfl⟩ := h1
    rw [List.getElem?_replicate] at h2
    split at h2
    · cases h2; trivial
    · cases h2
  have hy := C04_split_records_partial (recMachine (storeIn z) recordioDecode fuel) _ _ hfit fuel
    (by rw [items_whole]; simpa using hf) ((List.range' 0 stores.length).map fun j => (j, none)) .eof
    (by rw [items_whole]; exact assembles_whole _) (by simp)
  have hn : number [] ((List.range' 0 stores.length).map fun j => (j, none)) =
      (List.range stores.length).map fun k => ⟨k, 0, none⟩ := by
    rw [number_whole, List.range_eq_range']
  exact hn ▸ ⟨hy, fun s => hy⟩

/-- The bits of records are there. -/
theorem assembles_some {stop : Stop} {its : List (Nat × Item)} {is : List (Nat × Option Bytes)} {e : End}
    (h : Assembles stop its is e) (hp : ∀ i ∈ its, i.2 ≠ .whole) : ∀ i ∈ is, ∃ b, i.2 = some b := by
  induction h with
  | eof _ => simp
  | fail _ _ => simp
  | @whole k rest _ _ _ _ => exact absurd rfl (hp (k, .whole) (by simp))
  | complete _ ih =>
    intro i hi
    rcases List.mem_cons.1 hi with rfl | hi
    · exact ⟨_, rfl⟩
    · exact ih (fun j hj => hp j (by simp [hj])) i hi
  | split mids _ ih =>
    intro i hi
    rcases List.mem_cons.1 hi with rfl | hi
    · exact ⟨_, rfl⟩
    · exact ih (fun j hj => hp j (by simp [hj])) i hi
  | badStart _ _ => simp
  | badNext _ _ => simp
  | cut _ _ => simp
  | cutFail _ _ _ => simp

theorem items_records (frames : List (List Frame)) : ∀ k,
    ∀ i ∈ (items k (frames.map fun fs => .records (fs.map fun x => ⟨x.kind, x.payload⟩) none)).1, i.2 ≠ .whole := by
  induction frames with
  | nil => intro k i hi; simp [items] at hi
  | cons f fs ih =>
    intro k i hi
    simp only [List.map_cons, items, List.mem_append, List.mem_map] at hi
    rcases hi with ⟨r, _, rfl⟩ | hi
    · simp
    · exact ih (k + 1) i hi

theorem number_some (is : List (Nat × Option Bytes)) (h : ∀ i ∈ is, ∃ b, i.2 = some b) : ∀ seen,
    ∀ i ∈ number seen is, ∃ b, i.bits = some b := by
  induction is with
  | nil => intro seen i hi; simp [number] at hi
  | cons a is ih =>
    obtain ⟨k, o⟩ := a
    obtain ⟨b, hb⟩ := h (k, o) (by simp)
    simp only at hb
    subst hb
    intro seen i hi
    simp only [number, List.mem_cons] at hi
    rcases hi with rfl | hi
    · exact ⟨b, rfl⟩
    · exact ih (fun j hj => h j (by simp [hj])) _ i hi

/-! ## Epochs -/

/-- The epochs of an image reader whose instances are all loaded. -/
theorem image_epochs (R : Rng) (hR : R.Lawful) (o : ReadOptions) (cv : Cv) (hcv : CvOk cv) (p : ImgParams)
    (core : Machine Inst) (insts : List Inst) (hc : core.Renews insts) (load : Inst → Res Bytes) (f : Inst → Bytes)
    (hl : ∀ i ∈ insts, load i = .ok (f i)) (hs : Supported cv p (insts.map f)) (hlen : insts.length < 2 ^ 64 - 1)
    (b : Nat) (hb : 0 < b) (l : LastHandling) (hlast : l ≠ .padWarn) (P Q : Nat) (hP : 0 < P)
    (r : Machine Inst) (hm : makeInstanceReader R o core = some r) (st : PState (batched b l r) ImgExample)
    (hr : Reachable P Q (toDecode (imageDecode cv p load)) st) :
    ∃ ms, EpochOrder o (selected o (insts.map f)) ms ∧
      (∀ (i : Nat) ex, (delivered st.out)[i]? = some ex →
        ∃ q, (deliverable (goodImages cv p) p.bad (batches b l ms))[i]? = some q ∧ HoldsImages cv p q ex) ∧
      (.ok none ∈ st.out →
        (delivered st.out).length = (deliverable (goodImages cv p) p.bad (batches b l ms)).length ∧
        (p.bad = .error → ∀ q ∈ batches b l ms, goodImages cv p q = true)) ∧
      (∀ e, .err e ∈ st.out → (e = .invalidInstance ∨ e = .invalidArgument) ∧ p.bad = .error ∧
        ∃ q ∈ batches b l ms, goodImages cv p q = false) ∧
      ∀ w, .ub w ∉ st.out := by
  obtain ⟨ys, h1, h2, h3, h4, h5⟩ := dataset_epochs R hR o _ _ hc hlen b hb l hlast r hm P Q hP _ st hr
  have hmem : ∀ i ∈ ys, i ∈ insts := fun i hi => selected_mem o _ i (epochOrder_mem o _ _ h1 i hi)
  have hd : ∀ q ∈ batches b l ys, _ := fun q hq =>
    image_batch cv hcv p load f q (fun i hi => hl i (hmem i (batches_mem b hb l ys q hq i hi)))
      (hs.mono fun x hx => by
        obtain ⟨i, hi, rfl⟩ := List.mem_map.1 hx
        exact List.mem_map.2 ⟨i, hmem i (batches_mem b hb l ys q hq i hi), rfl⟩)
      (batches_fit b hb l ys q hq).1
  obtain ⟨e1, e2⟩ := examples_deliverable_any _ (fun q : Batch Inst => q.map f)
    (goodImages cv p) p.bad (HoldsImages cv p) (batches b l ys) (fun q hq => by
      have := hd q hq
      split at this
      · next hc => rw [if_pos hc]; exact this
      · next hc =>
        rw [if_neg hc]
        split at this
        · next he => rw [if_pos he]; exact this.imp fun _ h => h.1
        · next he => rw [if_neg he]; exact this)
  refine ⟨ys.map f, ?_, ?_, ?_, ?_, h5⟩
  · rw [selected_map]
    exact epochOrder_map _ o _ _ h1
  · intro i ex hi
    obtain ⟨t, ht⟩ := h2
    rw [batches_map]
    exact e2 i ex (by
      rw [← ht, List.getElem?_append_left (List.getElem?_eq_some_iff.1 hi).1]; exact hi)
  · intro hx
    obtain ⟨g1, g2⟩ := h3 hx
    rw [batches_map]
    refine ⟨by rw [g1, e1], ?_⟩
    intro hbad q' hq'
    obtain ⟨q, hq, rfl⟩ := List.mem_map.1 hq'
    cases hgq : goodImages cv p (q.map f) with
    | true => rfl
    | false =>
      have := hd q hq
      rw [hgq, hbad] at this
      obtain ⟨x, hx⟩ := g2 q hq
      rw [hx] at this
      simp at this
  · intro e he
    obtain ⟨q, hq, hd'⟩ := h4 e he
    have := hd q hq
    rw [batches_map]
    split at this
    · obtain ⟨ex, h, _⟩ := this
      rw [hd'] at h
      cases h
    · next hn =>
      simp only [Bool.or_eq_true, not_or, Bool.not_eq_true] at hn
      split at this
      · next hbad =>
        obtain ⟨e', h, hcl⟩ := this
        rw [hd'] at h
        cases h
        exact ⟨hcl, hbad, _, List.mem_map.2 ⟨q, hq, rfl⟩, hn.1.1⟩
      · rw [hd'] at this
        cases this

end Mlio
