import Verif.Proofs.Image

/-!
# C56, C65: the image reader
-/

namespace Mlio
open Spec

/-! ## C56 -/

/-- C56, resizing: the shorter edge gets the requested size, and the aspect ratio is kept up to rounding of the longer
edge; OpenCV is called with that size (width, height), and the size is determined by this description.

Partial: the product of the requested size and the longer edge must be representable in 32 bits, see
`C56_overflow_violated`. -/
theorem C56_resize_partial (v rows cols : Nat) (hv : 0 < v) (hr : 0 < rows) (hc : 0 < cols)
    (hb : v * max rows cols < 2 ^ 31) :
    ∃ rows' cols' : Nat, resizeTarget (toInt32 v) rows cols = .ok ((cols' : Int), (rows' : Int)) ∧
      Resized v rows cols rows' cols' ∧ ∀ a b, Resized v rows cols a b → a = rows' ∧ b = cols' := by
  obtain ⟨h, w, e, R, _⟩ := resizeTarget_spec v rows cols hv hr hc hb
  exact ⟨h, w, e, R, fun a b hR => resized_unique hR R⟩

/-- 640×480 to 256: 341×256. -/
example : resizeTarget (toInt32 256) 480 640 = .ok (341, 256) ∧ 256 * max 480 640 < 2 ^ 31 := by decide

/-- C56 fails for large images: the product overflows, although the resized image would be small. -/
theorem C56_overflow_violated :
    ∃ v rows cols : Nat, v < 2 ^ 31 ∧ rows < 2 ^ 31 ∧ cols < 2 ^ 31 ∧ 0 < v ∧ 0 < rows ∧ 0 < cols ∧
      (∃ rows' cols', Resized v rows cols rows' cols' ∧ rows' < 2 ^ 31 ∧ cols' < 2 ^ 31) ∧
      ∃ w, resizeTarget (toInt32 v) rows cols = .ub w := by
  refine ⟨50000, 50000, 49999, by decide, by decide, by decide, by decide, by decide, by decide, ?_, _, rfl⟩
  refine ⟨50001, 50000, ⟨by decide, fun _ => ⟨rfl, by decide, by decide⟩, fun h => absurd h (by decide)⟩, by decide,
    by decide⟩

/-- The sizes after resizing are computed, for every requested size and image, exactly if the product of the requested size
and the longer edge is an `int`. -/
theorem C56_defined_partial (v : Int) (rows cols : Nat) (hr : 0 < rows) (hc : 0 < cols) :
    (∃ a, resizeTarget v rows cols = .ok a) ↔ -2 ^ 31 ≤ v * (max rows cols : Nat) ∧ v * (max rows cols : Nat) < 2 ^ 31 := by
  unfold resizeTarget intRes
  by_cases h : (rows : Int) > (cols : Int)
  · rw [if_pos h]
    have e : max rows cols = rows := by omega
    rw [e]
    split
    · rename_i p hp
      split at hp
      · rename_i hb
        rw [if_neg (by omega)]
        exact ⟨fun _ => hb, fun _ => ⟨_, rfl⟩⟩
      · cases hp
    · rename_i e hp
      split at hp <;> cases hp
    · rename_i w hp
      split at hp
      · cases hp
      · rename_i hb
        exact ⟨(by rintro ⟨_, h⟩; cases h), fun h => absurd h hb⟩
  · rw [if_neg h]
    have e : max rows cols = cols := by omega
    rw [e]
    split
    · rename_i p hp
      split at hp
      · rename_i hb
        rw [if_neg (by omega)]
        exact ⟨fun _ => hb, fun _ => ⟨_, rfl⟩⟩
      · cases hp
    · rename_i e hp
      split at hp <;> cases hp
    · rename_i w hp
      split at hp
      · cases hp
      · rename_i hb
        exact ⟨(by rintro ⟨_, h⟩; cases h), fun h => absurd h hb⟩

example : ∃ a, resizeTarget 256 480 640 = .ok a := ⟨_, rfl⟩

/-- C56 fails for requested sizes of `2 ^ 31` and more: the reader takes another number instead, the one that differs by a
multiple of `2 ^ 32` and is an `int`, be it negative. -/
theorem C56_narrowing_violated (v : Nat) (hv : 2 ^ 31 ≤ v) :
    ∃ i : Int, i ≠ v ∧ -2 ^ 31 ≤ i ∧ i < 2 ^ 31 ∧ (∃ k : Int, v - i = k * 2 ^ 32) ∧
      ∀ rows cols, resizeTarget (toInt32 v) rows cols = resizeTarget i rows cols := by
  refine ⟨toInt32 v, ?_, ?_, ?_, ?_, fun _ _ => rfl⟩
  · unfold toInt32; split <;> omega
  · unfold toInt32; split <;> omega
  · unfold toInt32; split <;> omega
  · unfold toInt32
    split
    · exact ⟨(v / 2 ^ 32 : Nat), by omega⟩
    · exact ⟨(v / 2 ^ 32 : Nat) + 1, by omega⟩

/-- `2 ^ 32 + 1` is taken for one pixel. -/
example : resizeTarget (toInt32 (2 ^ 32 + 1)) 10 10 = .ok (1, 1) := by decide

/-- C56, cropping: the rectangle lies inside the image, has the requested size and is centred up to one pixel; what is
copied are the pixels in it.  Partial: the image must have the channels and the sample size of the output, see
`C56_alpha_violated`. -/
theorem C56_crop_partial (bad : BadHandling) (h w : Nat) (img : Img) (hb : img.byteSized = true)
    (hp : ∀ r c, (img.px r c).length = img.chans) (h1 : h ≤ img.rows) (h2 : w ≤ img.cols) :
    ∃ out y x, cropImage bad img.chans h w img = .ok (some out) ∧
      Centred img.rows h y ∧ Centred img.cols w x ∧ out.length = h * (w * img.chans) ∧
      ∀ r c ch, r < h → c < w → ch < img.chans →
        out[(r * w + c) * img.chans + ch]? = (img.px (y + r) (x + c))[ch]? := by
  refine ⟨_, (img.rows - h) / 2, (img.cols - w) / 2, ?_, centred_half _ _ h1, centred_half _ _ h2,
    regionBytes_length img _ _ h w img.chans hp, fun r c ch hr hc hch => regionBytes_get img _ _ h w _ hp r c ch hr hc hch⟩
  unfold cropImage
  have n2 : ¬ ((img.rows : Int) < (h : Int) ∨ (img.cols : Int) < (w : Int)) := by omega
  rw [if_neg n2]
  simp only
  rw [← Int.ofNat_sub h1, ← Int.ofNat_sub h2, tdiv_two, tdiv_two]
  simp [hb]

/-- An image of 5×4 pixels with one channel. -/
def exGray : Img := ⟨5, 4, 1, true, fun r c => [UInt8.ofNat (10 * r + c)]⟩

example : (match cropImage .error 1 2 2 exGray with | .ok o => o | _ => none) = some [11, 12, 21, 22] := by decide

/-- C56: an image that is too small is a bad instance. -/
theorem C56_too_small (bad : BadHandling) (chans h w : Nat) (img : Img) (hs : img.rows < h ∨ img.cols < w) :
    (bad ≠ .error → cropImage bad chans h w img = .ok none) ∧
    (bad = .error → ∃ e, cropImage bad chans h w img = .err e) := by
  have n2 : (img.rows : Int) < (h : Int) ∨ (img.cols : Int) < (w : Int) := by omega
  unfold cropImage
  rw [if_pos n2]
  exact ⟨fun hb => by rw [if_neg hb], fun hb => ⟨_, by rw [if_pos hb]⟩⟩

/-- C56 fails in one respect: the error that is raised for an image that is too small is not the one of bad instances. -/
theorem C56_error_violated (chans h w : Nat) (img : Img) (hs : img.rows < h ∨ img.cols < w) :
    cropImage .error chans h w img = .err .invalidArgument ∧ cropImage .error chans h w img ≠ .err .invalidInstance := by
  have n2 : (img.rows : Int) < (h : Int) ∨ (img.cols : Int) < (w : Int) := by omega
  unfold cropImage
  rw [if_pos n2]
  simp

example : exGray.rows < 6 := by decide

/-- C56 fails for images with an alpha channel that are to be converted to RGB: the conversion leaves three channels,
nothing is written into the tensor, and the instance counts as good. -/
theorem C56_alpha_violated (p : ImgParams) (hc : p.channels = 4) (ht : p.toRgb = true) (hh : p.height < 2 ^ 31)
    (hw : p.width < 2 ^ 31) (img : Img) (h4 : img.chans = 4) (h1 : p.height ≤ img.rows) (h2 : p.width ≤ img.cols) :
    (colorStep p img).andThen (cropStep p) = .ok (some []) := by
  have e1 : colorStep p img = .ok (bgr2rgb img) := by
    unfold colorStep bgr2rgb
    rw [if_pos ⟨ht, by omega⟩, if_pos (Or.inr h4)]
  rw [e1]
  unfold bgr2rgb
  rw [if_pos (Or.inr h4)]
  simp only [Res.andThen]
  unfold cropStep
  have n1 : ¬ ((p.height : Int) < 0 ∨ (p.width : Int) < 0) := by omega
  rw [toInt32_small hh, toInt32_small hw, if_neg n1]
  unfold cropImage
  have n2 : ¬ ((img.rows : Int) < (p.height : Int) ∨ (img.cols : Int) < (p.width : Int)) := by omega
  simp only [n2, if_false, hc]
  rw [if_neg (by omega)]

example : ∃ p : ImgParams, p.channels = 4 ∧ p.toRgb = true ∧ p.height < 2 ^ 31 ∧ p.width < 2 ^ 31 :=
  ⟨{ channels := 4, height := 2, width := 2, toRgb := true }, by decide⟩

/-! ## C65 -/

/-- Rows of the tensor. -/
theorem rows_of_flatten (p : ImgParams) (xs : List Bytes) (zs : Bytes) (hx : ∀ x ∈ xs, x.length = batchStride p)
    (k : Nat) (x : Bytes) (hk : xs[k]? = some x) (r c ch : Nat) (hr : r < p.height) (hc : c < p.width)
    (hch : ch < p.channels) :
    (xs.flatten ++ zs)[((k * p.height + r) * p.width + c) * p.channels + ch]? =
      x[(r * p.width + c) * p.channels + ch]? := by
  have hj : (r * p.width + c) * p.channels + ch < batchStride p := by
    have a1 : (c + 1) * p.channels ≤ p.width * p.channels := Nat.mul_le_mul_right _ hc
    have a2 : (r + 1) * (p.width * p.channels) ≤ p.height * (p.width * p.channels) := Nat.mul_le_mul_right _ hr
    unfold batchStride
    rw [Nat.add_mul] at a1 a2
    rw [Nat.add_mul, Nat.mul_assoc]
    omega
  have e : ((k * p.height + r) * p.width + c) * p.channels + ch =
      k * batchStride p + ((r * p.width + c) * p.channels + ch) := by
    unfold batchStride
    grind
  rw [e]
  clear e
  generalize (r * p.width + c) * p.channels + ch = j at hj
  revert k
  induction xs with
  | nil => intro k hk; simp at hk
  | cons a xs ih =>
    intro k hk
    have ha := hx a (by simp)
    cases k with
    | zero =>
      simp only [List.getElem?_cons_zero, Option.some.injEq] at hk
      subst hk
      rw [List.flatten_cons, List.append_assoc, List.getElem?_append_left (by omega)]
      congr 1
      omega
    | succ k =>
      rw [List.flatten_cons, List.append_assoc, List.getElem?_append_right (by rw [ha, Nat.add_mul]; omega)]
      have : (k + 1) * batchStride p + j - a.length = k * batchStride p + j := by rw [ha, Nat.add_mul]; omega
      rw [this]
      exact ih (fun y hy => hx y (by simp [hy])) k (by simpa using hk)

open Classical in
/-- C65: with padding, the example holds the centres of the good images of the batch, in their order, in its first rows;
the remaining rows are zero and are counted as padding. -/
theorem C65_padded_partial (cv : Cv) (hcv : CvOk cv) (p : ImgParams) (size : Nat) (insts : List Bytes)
    (hs : Supported cv p insts) (hlen : insts.length ≤ size) (hb : p.bad = .pad ∨ p.bad = .padWarn)
    (good : List Bytes) (hgood : good = insts.filter (fun i => decide (GoodImage cv p i))) :
    ∃ ex, decodeBatchImages cv p size insts = .ok (some ex) ∧ ex.padding = size - good.length ∧
      ex.data.length = size * batchStride p ∧
      (∀ k inst, good[k]? = some inst → ∃ img, Prepared cv p inst img ∧ RowIs p ex.data k img) ∧
      (∀ j, good.length * batchStride p ≤ j → j < size * batchStride p → ex.data[j]? = some 0) := by
  have hne : p.bad ≠ .error := by rcases hb with h | h <;> rw [h] <;> simp
  -- the outcome of each instance
  have hex : ∀ i, ∃ o : Option Bytes, i ∈ insts → decodeCore cv p i = .ok o ∧ (∀ x, o = some x → x.length = batchStride p) ∧
      (o.isSome ↔ GoodImage cv p i) ∧
      ∀ x, o = some x → ∃ img y z, Prepared cv p i img ∧ Centred img.rows p.height y ∧ Centred img.cols p.width z ∧
        (∀ r c, (img.px r c).length = p.channels) ∧ x = regionBytes img y z p.height p.width := by
    intro i
    by_cases hi : i ∈ insts
    · obtain ⟨k1, k2, _⟩ := decodeCore_spec cv hcv p insts hs i hi
      by_cases hg : GoodImage cv p i
      · obtain ⟨img, hp, h1, h2⟩ := hg
        obtain ⟨y, x, c1, c2, e, hl⟩ := k1 img hp h1 h2
        refine ⟨some (regionBytes img y x p.height p.width), fun _ => ⟨e, ?_, ?_, ?_⟩⟩
        · rintro x' hx'
          simp only [Option.some.injEq] at hx'
          rw [← hx', regionBytes_length img _ _ _ _ _ hl]; rfl
        · simp only [Option.isSome_some, true_iff]; exact ⟨img, hp, h1, h2⟩
        · intro x' hx'
          simp only [Option.some.injEq] at hx'
          exact ⟨img, y, x, hp, c1, c2, hl, hx'.symm⟩
      · exact ⟨none, fun _ => ⟨k2 hg hne, by simp, by simp [hg], by simp⟩⟩
    · exact ⟨none, fun h => absurd h hi⟩
  let f : Bytes → Option Bytes := fun i => Classical.choose (hex i)
  have hf : ∀ i ∈ insts, _ := fun i hi => Classical.choose_spec (hex i) hi
  have hloop := decodeImages_pad cv p (batchStride p) size hb f insts [] 0
    (fun i hi => ⟨(hf i hi).1, (hf i hi).2.1⟩) (by simp) (by omega)
  -- the good ones
  have hfm : ∀ l : List Bytes, (∀ i ∈ l, i ∈ insts) →
      ∃ g : Bytes → Bytes, (l.filterMap f) = (l.filter (fun i => decide (GoodImage cv p i))).map g ∧
        g = fun i => (f i).getD [] := by
    intro l hl
    refine ⟨_, ?_, rfl⟩
    induction l with
    | nil => rfl
    | cons i l ih =>
      have ih := ih (fun j hj => hl j (by simp [hj]))
      have hi := (hf i (hl i (by simp))).2.2.1
      by_cases hg : GoodImage cv p i
      · obtain ⟨x, hx⟩ := Option.isSome_iff_exists.1 (hi.2 hg)
        have hx' : f i = some x := hx
        rw [List.filterMap_cons_some hx', ih, List.filter_cons_of_pos (by simpa using hg), List.map_cons, hx']
        rfl
      · have hn : f i = none := by
          cases h : f i with
          | none => rfl
          | some x => exact absurd (hi.1 (by show (f i).isSome = true; rw [h]; rfl)) hg
        rw [List.filterMap_cons_none hn, ih, List.filter_cons_of_neg (by simpa using hg)]
  obtain ⟨g, hg1, hg2⟩ := hfm insts (fun i hi => hi)
  rw [← hgood] at hg1
  simp only [Nat.zero_mul, Nat.sub_zero, List.nil_append, Nat.zero_add] at hloop
  rw [hg1, List.length_map] at hloop
  have hgi : ∀ i ∈ good, i ∈ insts ∧ GoodImage cv p i := by
    intro i hi
    rw [hgood] at hi
    have := List.mem_filter.1 hi
    exact ⟨this.1, by simpa using this.2⟩
  have hgl : good.length ≤ size := by
    have : good.length ≤ insts.length := by rw [hgood]; exact List.length_filter_le _ _
    omega
  have hgx : ∀ x ∈ good.map g, x.length = batchStride p := by
    intro x hx
    obtain ⟨i, hi, rfl⟩ := List.mem_map.1 hx
    obtain ⟨hin, hgd⟩ := hgi i hi
    obtain ⟨x, hx⟩ := Option.isSome_iff_exists.1 ((hf i hin).2.2.1.2 hgd)
    have hx' : f i = some x := hx
    have : g i = x := by rw [hg2]; simp only [hx', Option.getD_some]
    rw [this]
    exact (hf i hin).2.1 x hx
  have hflat : (good.map g).flatten.length = good.length * batchStride p := by
    have : ∀ l : List Bytes, (∀ x ∈ l, x.length = batchStride p) → l.flatten.length = l.length * batchStride p := by
      intro l hl
      induction l with
      | nil => simp
      | cons a l ih =>
        rw [List.flatten_cons, List.length_append, hl a (by simp), ih (fun y hy => hl y (by simp [hy])), List.length_cons,
          Nat.add_mul]
        omega
    rw [this _ hgx, List.length_map]
  have hsz : good.length * batchStride p + (size - good.length) * batchStride p = size * batchStride p := by
    rw [← Nat.add_mul]; congr 1; omega
  refine ⟨⟨(good.map g).flatten ++ List.replicate ((size - good.length) * batchStride p) 0, size - good.length⟩, ?_, rfl,
    ?_, ?_, ?_⟩
  · unfold decodeBatchImages
    rw [hloop]
  · simp only [List.length_append, hflat, List.length_replicate]
    omega
  · intro k inst hk
    obtain ⟨hin, hgd⟩ := hgi inst (List.mem_of_getElem? hk)
    obtain ⟨x, hx⟩ := Option.isSome_iff_exists.1 ((hf inst hin).2.2.1.2 hgd)
    obtain ⟨img, y, z, hp, c1, c2, hl, he⟩ := (hf inst hin).2.2.2 x hx
    have hgx' : g inst = x := by
      have hx' : f inst = some x := hx
      rw [hg2]; simp only [hx', Option.getD_some]
    refine ⟨img, hp, y, z, c1, c2, ?_⟩
    intro r c ch hr hc hch
    rw [rows_of_flatten p (good.map g) _ hgx k x (by rw [List.getElem?_map, hk]; simp [hgx']) r c ch hr hc hch, he,
      regionBytes_get img y z _ _ _ hl r c ch hr hc hch]
  · intro j h1 h2
    rw [List.getElem?_append_right (by omega), List.getElem?_replicate, if_pos (by omega)]

open Classical in
/-- C65: without padding, a batch of good images gives the example with all of them, and a bad one drops the example, or
raises. -/
theorem C65_others_partial (cv : Cv) (hcv : CvOk cv) (p : ImgParams) (size : Nat) (insts : List Bytes)
    (hs : Supported cv p insts) (hlen : insts.length ≤ size) :
    ((∀ i ∈ insts, GoodImage cv p i) →
      ∃ ex, decodeBatchImages cv p size insts = .ok (some ex) ∧ ex.padding = size - insts.length ∧
        ex.data.length = size * batchStride p ∧
        (∀ k inst, insts[k]? = some inst → ∃ img, Prepared cv p inst img ∧ RowIs p ex.data k img) ∧
        ∀ j, insts.length * batchStride p ≤ j → j < size * batchStride p → ex.data[j]? = some 0) ∧
    ((∃ i ∈ insts, ¬ GoodImage cv p i) →
      ((p.bad = .skip ∨ p.bad = .skipWarn) → decodeBatchImages cv p size insts = .ok none) ∧
      (p.bad = .error → ∃ e, decodeBatchImages cv p size insts = .err e ∧
        (e = .invalidInstance ∨ e = .invalidArgument))) := by
  have hex : ∀ i, ∃ x : Bytes, i ∈ insts → GoodImage cv p i → decodeCore cv p i = .ok (some x) ∧
      x.length = batchStride p ∧
      ∃ img y z, Prepared cv p i img ∧ Centred img.rows p.height y ∧ Centred img.cols p.width z ∧
        (∀ r c, (img.px r c).length = p.channels) ∧ x = regionBytes img y z p.height p.width := by
    intro i
    by_cases hi : i ∈ insts ∧ GoodImage cv p i
    · obtain ⟨hi, img, hp, h1, h2⟩ := hi
      obtain ⟨y, x, c1, c2, e, hl⟩ := (decodeCore_spec cv hcv p insts hs i hi).1 img hp h1 h2
      exact ⟨_, fun _ _ => ⟨e, by rw [regionBytes_length img _ _ _ _ _ hl]; rfl, img, y, x, hp, c1, c2, hl, rfl⟩⟩
    · exact ⟨[], fun h1 h2 => absurd ⟨h1, h2⟩ hi⟩
  let f : Bytes → Bytes := fun i => Classical.choose (hex i)
  have hf : ∀ i ∈ insts, GoodImage cv p i → _ := fun i hi hg => Classical.choose_spec (hex i) hi hg
  constructor
  · intro hall
    have hloop := decodeImages_good cv p (batchStride p) size f insts [] 0
      (fun i hi => ⟨(hf i hi (hall i hi)).1, (hf i hi (hall i hi)).2.1⟩) (by simp) (by omega)
    simp only [Nat.zero_mul, Nat.sub_zero, List.nil_append, Nat.zero_add] at hloop
    have hflat : (insts.map f).flatten.length = insts.length * batchStride p := by
      have : ∀ l : List Bytes, (∀ i ∈ l, (f i).length = batchStride p) →
          (l.map f).flatten.length = l.length * batchStride p := by
        intro l
        induction l with
        | nil => simp
        | cons a l ih =>
          intro hl
          rw [List.map_cons, List.flatten_cons, List.length_append, hl a (by simp), ih (fun i hi => hl i (by simp [hi])),
            List.length_cons, Nat.add_mul]
          omega
      exact this insts fun i hi => (hf i hi (hall i hi)).2.1
    refine ⟨⟨(insts.map f).flatten ++ List.replicate ((size - insts.length) * batchStride p) 0, size - insts.length⟩, ?_, rfl, ?_, ?_, ?_⟩
    · unfold decodeBatchImages
      rw [hloop]
    · simp only [List.length_append, hflat, List.length_replicate]
      rw [← Nat.add_mul]
      congr 1
      omega
    · intro k inst hk
      have hin := List.mem_of_getElem? hk
      obtain ⟨_, _, img, y, z, hp, c1, c2, hl, he⟩ := hf inst hin (hall inst hin)
      refine ⟨img, hp, y, z, c1, c2, ?_⟩
      intro r c ch hr hc hch
      rw [rows_of_flatten p (insts.map f) _ ?_ k (f inst) (by rw [List.getElem?_map, hk]; rfl) r c ch hr hc hch]
      · show (Classical.choose (hex inst))[_]? = _
        rw [he, regionBytes_get img y z _ _ _ hl r c ch hr hc hch]
      · intro x hx
        obtain ⟨i, hi, rfl⟩ := List.mem_map.1 hx
        exact (hf i hi (hall i hi)).2.1
    · intro j h1 h2
      have hj : j - insts.length * batchStride p < (size - insts.length) * batchStride p := by
        rw [Nat.sub_mul]; omega
      rw [List.getElem?_append_right (by omega), hflat, List.getElem?_replicate, if_pos hj]
  · rintro ⟨i, hi, hg⟩
    -- the first bad one
    have hsplit : ∀ l : List Bytes, (∃ i ∈ l, ¬ GoodImage cv p i) →
        ∃ pre b rest, l = pre ++ b :: rest ∧ (∀ j ∈ pre, GoodImage cv p j) ∧ ¬ GoodImage cv p b := by
      intro l
      induction l with
      | nil => rintro ⟨i, hi, _⟩; simp at hi
      | cons a l ih =>
        rintro ⟨i, hi, hg⟩
        by_cases ha : GoodImage cv p a
        · obtain ⟨pre, b, rest, e, h1, h2⟩ := ih (by
            rcases List.mem_cons.1 hi with rfl | hi
            · exact absurd ha hg
            · exact ⟨i, hi, hg⟩)
          refine ⟨a :: pre, b, rest, by rw [e]; rfl, ?_, h2⟩
          intro j hj
          rcases List.mem_cons.1 hj with rfl | hj
          · exact ha
          · exact h1 j hj
        · exact ⟨[], a, l, rfl, by simp, ha⟩
    obtain ⟨pre, b, rest, e, hpre, hbad⟩ := hsplit insts ⟨i, hi, hg⟩
    have hmem : ∀ j ∈ pre, j ∈ insts := fun j hj => by rw [e]; simp [hj]
    have hbm : b ∈ insts := by rw [e]; simp
    have hl : pre.length + 1 ≤ size := by
      have : insts.length = pre.length + (rest.length + 1) := by rw [e]; simp
      omega
    obtain ⟨l1, l2⟩ := decodeImages_bad cv p (batchStride p) size b f rest pre [] 0
      (fun j hj => ⟨(hf j (hmem j hj) (hpre j hj)).1, (hf j (hmem j hj) (hpre j hj)).2.1⟩) (by simp) (by omega)
    simp only [Nat.zero_mul, Nat.sub_zero, List.nil_append] at l1 l2
    obtain ⟨_, k2, k3⟩ := decodeCore_spec cv hcv p insts hs b hbm
    constructor
    · intro hp
      have hne : p.bad ≠ .error := by rcases hp with h | h <;> rw [h] <;> simp
      unfold decodeBatchImages
      rw [e, l1 hp (k2 hbad hne)]
    · intro hp
      obtain ⟨er, her, hcl⟩ := k3 hbad hp
      refine ⟨er, ?_, hcl⟩
      unfold decodeBatchImages
      rw [e, l2 er her]

/-- A stand-in for OpenCV: an instance is a grey image of its first byte rows and columns, all pixels having the second
byte. -/
def exCv : Cv where
  imdecode m b := match b with
    | n :: v :: _ => if n.toNat = 0 then none else
      some ⟨n.toNat, n.toNat, match m with | .grayscale => 1 | .color => 3 | .unchanged => 4, true,
        fun _ _ => List.replicate (match m with | .grayscale => 1 | .color => 3 | .unchanged => 4) v⟩
    | _ => none
  resize img w h := if 0 < w ∧ w < 2 ^ 31 ∧ 0 < h ∧ h < 2 ^ 31 then some { img with rows := h.toNat, cols := w.toNat } else none

theorem exCv_ok : CvOk exCv := by
  have hd : ∀ m b img, exCv.imdecode m b = some img →
      ImgOk img ∧ (m = .grayscale → img.chans = 1) ∧ (m = .color → img.chans = 3) ∧ img.byteSized = true := by
    intro m b img h
    unfold exCv at h
    match b with
    | [] => simp at h
    | [_] => simp at h
    | n :: v :: _ =>
      simp only at h
      split at h
      · simp at h
      · simp only [Option.some.injEq] at h
        subst h
        have hn := n.toNat_lt
        refine ⟨⟨by simp only; omega, by simp only; omega, by simp only; omega, by simp only; omega, fun _ r c => by simp⟩,
          ?_, ?_, rfl⟩
        · rintro rfl; rfl
        · rintro rfl; rfl
  refine ⟨fun m b img h => (hd m b img h).1, fun b img h => ⟨(hd _ b img h).2.1 rfl, (hd _ b img h).2.2.2⟩,
    fun b img h => ⟨(hd _ b img h).2.2.1 rfl, (hd _ b img h).2.2.2⟩, ?_, ?_⟩
  · intro img w h hw hw' hh hh'
    exact ⟨_, if_pos ⟨hw, hw', hh, hh'⟩⟩
  · intro img w h r hr
    unfold exCv at hr
    simp only at hr
    split at hr
    · rename_i hc
      simp only [Option.some.injEq] at hr
      subst hr
      refine ⟨by simp only; omega, by simp only; omega, rfl, rfl, fun ho => ?_⟩
      refine ⟨by simp only; omega, by simp only; omega, by simp only; omega, by simp only; omega, ho.2.2.2.2⟩
    · simp at hr

example : Supported exCv { channels := 1, height := 2, width := 1, bad := .pad } [[3, 7], [0], [1, 9], [2, 8]] :=
  ⟨by decide, by decide, by decide, by decide, by simp, fun _ _ _ _ => ⟨by simp, by simp⟩⟩

example : GoodImage exCv { channels := 1, height := 2, width := 1, bad := .pad } [3, 7] :=
  ⟨_, .mk _ _ rfl (Or.inl ⟨rfl, rfl⟩) _ (Or.inl ⟨Or.inl rfl, rfl⟩), by decide, by decide⟩

/-- Of four instances one is no image and one is too small. -/
example : (match decodeBatchImages exCv { channels := 1, height := 2, width := 1, bad := .pad } 4 [[3, 7], [0], [1, 9], [2, 8]] with
    | .ok (some ex) => some (ex.data, ex.padding) | _ => none) = some ([7, 7, 8, 8, 0, 0, 0, 0], 2) := by decide

end Mlio
