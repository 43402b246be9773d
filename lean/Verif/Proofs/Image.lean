import Verif.Spec.Image

/-!
# Lemmas about the image reader
-/

namespace Mlio
open Spec

theorem toInt32_small {n : Nat} (h : n < 2 ^ 31) : toInt32 n = n := by
  unfold toInt32
  rw [Nat.mod_eq_of_lt (by omega), if_pos h]

theorem intRes_small {n : Nat} (h : n < 2 ^ 31) : intRes (n : Int) = .ok (n : Int) := by
  unfold intRes
  rw [if_pos (by omega)]

theorem div_bounds (k n : Nat) (hn : 0 < n) : k / n * n ≤ k ∧ k < (k / n + 1) * n := by
  have hd := Nat.div_add_mod k n
  have hl := Nat.mod_lt k hn
  refine ⟨Nat.div_mul_le_self _ _, ?_⟩
  rw [Nat.add_mul, Nat.mul_comm (k / n)]
  omega

theorem resizeTarget_spec (v rows cols : Nat) (hv : 0 < v) (hr : 0 < rows) (hc : 0 < cols)
    (hb : v * max rows cols < 2 ^ 31) :
    ∃ h w : Nat, resizeTarget (toInt32 v) rows cols = .ok ((w : Int), (h : Int)) ∧ Resized v rows cols h w ∧
      0 < h ∧ 0 < w ∧ h < 2 ^ 31 ∧ w < 2 ^ 31 := by
  have hv31 : v < 2 ^ 31 := by
    have : v * 1 ≤ v * max rows cols := Nat.mul_le_mul_left _ (by omega)
    omega
  rw [toInt32_small hv31]
  by_cases h : rows > cols
  · have hm : max rows cols = rows := by omega
    rw [hm] at hb
    have hge : v ≤ v * rows / cols := by
      rw [Nat.le_div_iff_mul_le hc]
      exact Nat.mul_le_mul_left _ (by omega)
    obtain ⟨d1, d2⟩ := div_bounds (v * rows) cols hc
    refine ⟨v * rows / cols, v, ?_, ⟨by omega, fun _ => ⟨rfl, d1, d2⟩, fun hx => absurd hx (by omega)⟩, by omega, hv,
      by have := Nat.div_le_self (v * rows) cols; omega, hv31⟩
    have hc' : (rows : Int) > (cols : Int) := by omega
    have hz : ¬ ((cols : Int) = 0) := by omega
    unfold resizeTarget
    rw [if_pos hc', ← Int.natCast_mul, intRes_small hb]
    simp only
    rw [if_neg hz, ← Int.ofNat_tdiv]
  · have hm : max rows cols = cols := by omega
    rw [hm] at hb
    have hge : v ≤ v * cols / rows := by
      rw [Nat.le_div_iff_mul_le hr]
      exact Nat.mul_le_mul_left _ (by omega)
    obtain ⟨d1, d2⟩ := div_bounds (v * cols) rows hr
    refine ⟨v, v * cols / rows, ?_, ⟨by omega, fun hx => absurd hx (by omega), fun _ => ⟨rfl, d1, d2⟩⟩, hv, by omega,
      hv31, by have := Nat.div_le_self (v * cols) rows; omega⟩
    have hc' : ¬ ((rows : Int) > (cols : Int)) := by omega
    have hz : ¬ ((rows : Int) = 0) := by omega
    unfold resizeTarget
    rw [if_neg hc', ← Int.natCast_mul, intRes_small hb]
    simp only
    rw [if_neg hz, ← Int.ofNat_tdiv]

/-- The sizes after resizing are determined. -/
theorem resized_unique {v rows cols a b a' b' : Nat} (h : Resized v rows cols a b) (h' : Resized v rows cols a' b') :
    a = a' ∧ b = b' := by
  have key : ∀ {n m x y k : Nat}, x * n ≤ k → k < (x + 1) * n → y * n ≤ k → k < (y + 1) * n → x = y := by
    intro n m x y k h1 h2 h3 h4
    rcases Nat.lt_trichotomy x y with hl | hl | hl
    · have : (x + 1) * n ≤ y * n := Nat.mul_le_mul_right _ hl
      omega
    · exact hl
    · have : (y + 1) * n ≤ x * n := Nat.mul_le_mul_right _ hl
      omega
  by_cases hc : rows > cols
  · obtain ⟨e1, l1, u1⟩ := h.2.1 hc
    obtain ⟨e2, l2, u2⟩ := h'.2.1 hc
    exact ⟨key (m := 0) l1 u1 l2 u2, by rw [e1, e2]⟩
  · obtain ⟨e1, l1, u1⟩ := h.2.2 (by omega)
    obtain ⟨e2, l2, u2⟩ := h'.2.2 (by omega)
    exact ⟨by rw [e1, e2], key (m := 0) l1 u1 l2 u2⟩

/-! ## Regions -/

theorem flatMap_get {α : Type} (L : Nat) : ∀ (l : List Nat) (f : Nat → List α), (∀ r ∈ l, (f r).length = L) →
    ∀ (i j : Nat) (r : Nat), l[i]? = some r → j < L → (l.flatMap f)[i * L + j]? = (f r)[j]?
  | [], f, _, i, j, r, h, _ => by simp at h
  | a :: l, f, hl, 0, j, r, h, hj => by
    simp only [List.getElem?_cons_zero, Option.some.injEq] at h
    subst h
    rw [List.flatMap_cons, List.getElem?_append_left (by rw [hl a (by simp)]; omega)]
    congr 1
    omega
  | a :: l, f, hl, i + 1, j, r, h, hj => by
    have ha := hl a (by simp)
    rw [List.flatMap_cons, List.getElem?_append_right (by rw [ha, Nat.add_mul]; omega)]
    rw [← flatMap_get L l f (fun x hx => hl x (by simp [hx])) i j r (by simpa using h) hj, ha]
    congr 1
    rw [Nat.add_mul]
    omega

theorem flatMap_length {α : Type} (L : Nat) : ∀ (l : List Nat) (f : Nat → List α), (∀ r ∈ l, (f r).length = L) →
    (l.flatMap f).length = l.length * L
  | [], _, _ => by simp
  | a :: l, f, h => by
    rw [List.flatMap_cons, List.length_append, h a (by simp), flatMap_length L l f (fun x hx => h x (by simp [hx])),
      List.length_cons, Nat.add_mul]
    omega

theorem regionBytes_length (img : Img) (y x h w C : Nat) (hp : ∀ r c, (img.px r c).length = C) :
    (regionBytes img y x h w).length = h * (w * C) := by
  unfold regionBytes
  rw [flatMap_length (w * C)]
  · simp
  · intro r _
    rw [flatMap_length C]
    · simp
    · intro c _; exact hp _ _

theorem regionBytes_get (img : Img) (y x h w C : Nat) (hp : ∀ r c, (img.px r c).length = C) (r c ch : Nat)
    (hr : r < h) (hc : c < w) (hch : ch < C) :
    (regionBytes img y x h w)[(r * w + c) * C + ch]? = (img.px (y + r) (x + c))[ch]? := by
  have e : (r * w + c) * C + ch = r * (w * C) + (c * C + ch) := by
    rw [Nat.add_mul, Nat.mul_assoc]; omega
  have hlt : c * C + ch < w * C := by
    have : (c + 1) * C ≤ w * C := Nat.mul_le_mul_right _ hc
    rw [Nat.add_mul] at this
    omega
  unfold regionBytes
  rw [e, flatMap_get (w * C) _ _ _ r (c * C + ch) r (by simp [hr]) hlt]
  · rw [flatMap_get C _ _ _ c ch c (by simp [hc]) hch]
    intro a _; exact hp _ _
  · intro a _
    rw [flatMap_length C]
    · simp
    · intro b _; exact hp _ _

/-! ## The loop -/

theorem writeAt_append (d x z : Bytes) (n : Nat) (h : x.length ≤ n) :
    writeAt (d ++ List.replicate n 0) d.length x = d ++ x ++ List.replicate (n - x.length) 0 := by
  unfold writeAt
  rw [List.take_left, List.drop_append, List.drop_eq_nil_of_le (by omega), List.drop_replicate]
  simp

theorem decodeImages_pad (cv : Cv) (p : ImgParams) (stride size : Nat) (hp : p.bad = .pad ∨ p.bad = .padWarn)
    (f : Bytes → Option Bytes) : ∀ (insts : List Bytes) (done : Bytes) (n : Nat),
    (∀ i ∈ insts, decodeCore cv p i = .ok (f i) ∧ ∀ x, f i = some x → x.length = stride) →
    done.length = n * stride → n + insts.length ≤ size →
    decodeImages cv p stride insts (done ++ List.replicate ((size - n) * stride) 0) (n * stride) n =
      .ok (some (done ++ (insts.filterMap f).flatten ++
        List.replicate ((size - (n + (insts.filterMap f).length)) * stride) 0, n + (insts.filterMap f).length))
  | [], done, n, _, _, _ => by simp [decodeImages]
  | i :: insts, done, n, hf, hd, hs => by
    obtain ⟨h1, h2⟩ := hf i (by simp)
    simp only [List.length_cons] at hs
    cases hfi : f i with
    | none =>
      rw [decodeImages, h1, hfi]
      simp only
      have ih := decodeImages_pad cv p stride size hp f insts done n (fun j hj => hf j (by simp [hj])) hd (by omega)
      rw [List.filterMap_cons_none hfi]
      rcases hp with hb | hb <;> rw [hb] <;> exact ih
    | some x =>
      have hx := h2 x hfi
      have hmul : (size - n) * stride = stride + (size - (n + 1)) * stride := by
        have : size - n = (size - (n + 1)) + 1 := by omega
        rw [this, Nat.add_mul]; omega
      have hlen : (done ++ List.replicate ((size - n) * stride) (0 : UInt8)).length = n * stride + (size - n) * stride := by
        simp [hd]
      rw [decodeImages, h1, hfi]
      simp only
      rw [if_neg (by omega), if_neg (by omega), ← hd, writeAt_append done x [] _ (by omega), hx]
      have ih := decodeImages_pad cv p stride size hp f insts (done ++ x) (n + 1) (fun j hj => hf j (by simp [hj]))
        (by rw [List.length_append, hd, hx, Nat.add_mul]; omega) (by omega)
      have e1 : (size - n) * stride - stride = (size - (n + 1)) * stride := by omega
      rw [e1, hd]
      have e2 : n * stride + stride = (n + 1) * stride := by rw [Nat.add_mul]; omega
      rw [e2, ih, List.filterMap_cons_some hfi]
      have e3 : n + 1 + (insts.filterMap f).length = n + (x :: insts.filterMap f).length := by simp; omega
      rw [e3]
      simp [List.append_assoc]

/-- All instances are good, whatever the handling. -/
theorem decodeImages_good (cv : Cv) (p : ImgParams) (stride size : Nat)
    (f : Bytes → Bytes) : ∀ (insts : List Bytes) (done : Bytes) (n : Nat),
    (∀ i ∈ insts, decodeCore cv p i = .ok (some (f i)) ∧ (f i).length = stride) →
    done.length = n * stride → n + insts.length ≤ size →
    decodeImages cv p stride insts (done ++ List.replicate ((size - n) * stride) 0) (n * stride) n =
      .ok (some (done ++ (insts.map f).flatten ++
        List.replicate ((size - (n + insts.length)) * stride) 0, n + insts.length))
  | [], done, n, _, _, _ => by simp [decodeImages]
  | i :: insts, done, n, hf, hd, hs => by
    obtain ⟨h1, hx⟩ := hf i (by simp)
    simp only [List.length_cons] at hs
    have hmul : (size - n) * stride = stride + (size - (n + 1)) * stride := by
      have : size - n = (size - (n + 1)) + 1 := by omega
      rw [this, Nat.add_mul]; omega
    have hlen : (done ++ List.replicate ((size - n) * stride) (0 : UInt8)).length = n * stride + (size - n) * stride := by
      simp [hd]
    rw [decodeImages, h1]
    simp only
    rw [if_neg (by omega), if_neg (by omega), ← hd, writeAt_append done (f i) [] _ (by omega), hx]
    have ih := decodeImages_good cv p stride size f insts (done ++ f i) (n + 1) (fun j hj => hf j (by simp [hj]))
      (by rw [List.length_append, hd, hx, Nat.add_mul]; omega) (by omega)
    have e1 : (size - n) * stride - stride = (size - (n + 1)) * stride := by omega
    rw [e1, hd]
    have e2 : n * stride + stride = (n + 1) * stride := by rw [Nat.add_mul]; omega
    rw [e2, ih]
    have e3 : n + 1 + insts.length = n + (i :: insts).length := by simp; omega
    rw [e3]
    simp [List.append_assoc]

/-- A bad instance, with the handlings other than padding. -/
theorem decodeImages_bad (cv : Cv) (p : ImgParams) (stride size : Nat) (b : Bytes)
    (f : Bytes → Bytes) (rest : List Bytes) : ∀ (pre : List Bytes) (done : Bytes) (n : Nat),
    (∀ i ∈ pre, decodeCore cv p i = .ok (some (f i)) ∧ (f i).length = stride) →
    done.length = n * stride → n + pre.length + 1 ≤ size →
    ((p.bad = .skip ∨ p.bad = .skipWarn) → decodeCore cv p b = .ok none →
      decodeImages cv p stride (pre ++ b :: rest) (done ++ List.replicate ((size - n) * stride) 0) (n * stride) n = .ok none) ∧
    (∀ e, decodeCore cv p b = .err e →
      decodeImages cv p stride (pre ++ b :: rest) (done ++ List.replicate ((size - n) * stride) 0) (n * stride) n = .err e)
  | [], done, n, _, _, _ => by
    constructor
    · intro hp hb
      rw [List.nil_append, decodeImages, hb]
      rcases hp with hp | hp <;> rw [hp]
    · intro e he
      rw [List.nil_append, decodeImages, he]
  | i :: pre, done, n, hf, hd, hs => by
    obtain ⟨h1, hx⟩ := hf i (by simp)
    simp only [List.length_cons] at hs
    have hmul : (size - n) * stride = stride + (size - (n + 1)) * stride := by
      have : size - n = (size - (n + 1)) + 1 := by omega
      rw [this, Nat.add_mul]; omega
    have hlen : (done ++ List.replicate ((size - n) * stride) (0 : UInt8)).length = n * stride + (size - n) * stride := by
      simp [hd]
    have ih := decodeImages_bad cv p stride size b f rest pre (done ++ f i) (n + 1) (fun j hj => hf j (by simp [hj]))
      (by rw [List.length_append, hd, hx, Nat.add_mul]; omega) (by omega)
    have e1 : (size - n) * stride - stride = (size - (n + 1)) * stride := by omega
    have e2 : n * stride + stride = (n + 1) * stride := by rw [Nat.add_mul]; omega
    have step : decodeImages cv p stride (i :: pre ++ b :: rest) (done ++ List.replicate ((size - n) * stride) 0) (n * stride) n =
        decodeImages cv p stride (pre ++ b :: rest) (done ++ f i ++ List.replicate ((size - (n + 1)) * stride) 0)
          ((n + 1) * stride) (n + 1) := by
      rw [List.cons_append, decodeImages, h1]
      simp only
      rw [if_neg (by omega), if_neg (by omega)]
      conv => lhs; rw [← hd]
      rw [writeAt_append done (f i) [] _ (by omega), hx, e1, hd, e2]
    rw [step]
    exact ih

/-! ## One instance -/

theorem resizeStep_spec (cv : Cv) (hcv : CvOk cv) (p : ImgParams) (img : Img) (ho : ImgOk img)
    (hv : ∀ v, p.resize = some v → 0 < v ∧ v * max img.rows img.cols < 2 ^ 31) :
    ∃ sized, resizeStep cv p img = .ok (some sized) ∧ ImgOk sized ∧ sized.chans = img.chans ∧
      sized.byteSized = img.byteSized ∧
      ((p.resize = none ∧ sized = img) ∨
        ∃ v rows' cols', p.resize = some v ∧ Resized v img.rows img.cols rows' cols' ∧
          cv.resize img (cols' : Nat) (rows' : Nat) = some sized) := by
  unfold resizeStep
  cases hr : p.resize with
  | none => exact ⟨img, rfl, ho, rfl, rfl, Or.inl ⟨rfl, rfl⟩⟩
  | some v =>
    obtain ⟨h1, h2⟩ := hv v hr
    obtain ⟨h, w, e, hR, hh, hw, hh', hw'⟩ := resizeTarget_spec v img.rows img.cols h1 ho.1 ho.2.2.1 h2
    obtain ⟨r, hr'⟩ := hcv.resizes img w h (by omega) (by omega) (by omega) (by omega)
    obtain ⟨_, _, c1, c2, c3⟩ := hcv.resized _ _ _ _ hr'
    refine ⟨r, ?_, c3 ho, c1, c2, Or.inr ⟨v, h, w, rfl, hR, hr'⟩⟩
    simp only [resizeImage, e, hr']

theorem bgr2rgb_three (img : Img) (ho : ImgOk img) (hc : img.chans = 3) (hb : img.byteSized = true) :
    ∃ out, bgr2rgb img = some out ∧ ImgOk out ∧ out.chans = 3 ∧ out.byteSized = true ∧
      out.rows = img.rows ∧ out.cols = img.cols := by
  unfold bgr2rgb
  rw [if_pos (Or.inl hc)]
  refine ⟨_, rfl, ⟨ho.1, ho.2.1, ho.2.2.1, ho.2.2.2.1, ?_⟩, rfl, hb, rfl, rfl⟩
  intro _ r c
  have hl := ho.2.2.2.2 hb r c
  simp [hl, hc]

/-- The conversion of an image with three or four channels of a byte is the only image that has what is wanted. -/
theorem rgbOf_iff (img : Img) (ho : ImgOk img) (hc : img.chans = 3 ∨ img.chans = 4) (hb : img.byteSized = true) (out : Img) :
    bgr2rgb img = some out ↔ RgbOf img out := by
  have key : ∀ r c, ∃ b g d rest, img.px r c = b :: g :: d :: rest ∧ (img.px r c).length / img.chans = 1 := by
    intro r c
    have hl := ho.2.2.2.2 hb r c
    have hd : (img.px r c).length / img.chans = 1 := by rw [hl]; rcases hc with h | h <;> rw [h]
    match hp : img.px r c with
    | [] => rw [hp] at hl; simp at hl; omega
    | [_] => rw [hp] at hl; simp at hl; omega
    | [_, _] => rw [hp] at hl; simp at hl; omega
    | b :: g :: d :: rest => exact ⟨b, g, d, rest, rfl, hp ▸ hd⟩
  unfold bgr2rgb
  rw [if_pos hc, Option.some.injEq]
  constructor
  · rintro rfl
    refine ⟨rfl, rfl, rfl, rfl, ?_⟩
    intro r c red green blue rest hp
    obtain ⟨_, _, _, _, _, hd⟩ := key r c
    simp only [hd]
    simp [hp]
  · rintro ⟨h1, h2, h3, h4, h5⟩
    obtain ⟨rows, cols, chans, bs, px⟩ := out
    simp only at h1 h2 h3 h4 h5
    subst h1 h2 h3 h4
    congr 1
    funext r c
    obtain ⟨b, g, d, rest, hp, hd⟩ := key r c
    rw [h5 r c d g b rest hp]
    simp only [hd]
    simp [hp]

theorem decodeBits_mode (cv : Cv) (p : ImgParams) (h : p.channels = 1 ∨ p.channels = 3 ∨ p.channels = 4) (bits : Bytes) :
    decodeBits cv p bits = decodeMode cv p (modeFor p.channels) bits := by
  unfold decodeBits
  have e1 : toInt32 1 = 1 := by decide
  have e3 : toInt32 3 = 3 := by decide
  have e4 : toInt32 4 = 4 := by decide
  rcases h with h | h | h <;> rw [h]
  · rw [e1, if_pos rfl]; rfl
  · rw [e3, if_neg (by decide), if_pos rfl]; rfl
  · rw [e4, if_neg (by decide), if_neg (by decide), if_pos rfl]; rfl

/-- The bytes that hold the image. -/
def imageBits (p : ImgParams) (inst : Bytes) : Bytes := if p.recordio then inst.drop 24 else inst

theorem decodeCore_mode (cv : Cv) (p : ImgParams) (insts : List Bytes) (hs : Supported cv p insts) (inst : Bytes)
    (hi : inst ∈ insts) : decodeCore cv p inst = decodeMode cv p (modeFor p.channels) (imageBits p inst) := by
  unfold decodeCore imageBits
  by_cases hr : p.recordio = true
  · have := hs.header hr inst hi
    rw [if_pos hr, if_neg (by omega), if_pos hr, decodeBits_mode cv p hs.channels]
  · rw [if_neg hr, if_neg hr, decodeBits_mode cv p hs.channels]

theorem prepare_spec (cv : Cv) (hcv : CvOk cv) (p : ImgParams) (insts : List Bytes) (hs : Supported cv p insts)
    (inst : Bytes) (hi : inst ∈ insts) (img : Img) (hd : cv.imdecode (modeFor p.channels) (imageBits p inst) = some img) :
    ∃ out, ((decodeImage cv p.bad (modeFor p.channels) (imageBits p inst)).andThen (resizeStep cv p)).andThen (colorStep p) =
        .ok (some out) ∧ ImgOk out ∧ out.chans = p.channels ∧ out.byteSized = true ∧
      Prepared cv p inst out ∧ ∀ out', Prepared cv p inst out' → out' = out := by
  have hok := hcv.decoded _ _ _ hd
  obtain ⟨hal, hrv⟩ := hs.images inst hi img hd
  have hch : img.chans = p.channels ∧ img.byteSized = true := by
    rcases hs.channels with h | h | h
    · rw [h] at hd; rw [h]; exact hcv.gray _ _ hd
    · rw [h] at hd; rw [h]; exact hcv.color _ _ hd
    · rw [h]; exact hal h
  obtain ⟨sized, e1, ok1, c1, b1, r1⟩ := resizeStep_spec cv hcv p img hok hrv
  have hdec : decodeImage cv p.bad (modeFor p.channels) (imageBits p inst) = .ok (some img) := by
    unfold decodeImage
    rw [hd]
    simp only
    rw [if_neg]
    rintro ⟨h1, h2⟩
    rcases hs.channels with h | h | h
    · rw [h] at h1; simp [modeFor] at h1
    · rw [h] at h1; simp [modeFor] at h1
    · exact h2 (hch.1.trans h)
  -- the conversion
  have hcol : ∃ out, colorStep p sized = .ok (some out) ∧ ImgOk out ∧ out.chans = p.channels ∧ out.byteSized = true ∧
      ((p.toRgb = false ∨ sized.chans = 1) ∧ out = sized ∨
        (p.toRgb = true ∧ sized.chans ≠ 1 ∧ RgbOf sized out)) := by
    unfold colorStep
    by_cases hc : p.toRgb = true ∧ sized.chans ≠ 1
    · have h3 : p.channels = 3 := by
        rcases hs.channels with h | h | h
        · exact absurd (by rw [c1, hch.1, h]) hc.2
        · exact h
        · have := hs.alpha h; rw [hc.1] at this; simp at this
      obtain ⟨out, o1, o2, o3, o4, _, _⟩ := bgr2rgb_three sized ok1 (by rw [c1, hch.1, h3]) (by rw [b1, hch.2])
      rw [if_pos hc, o1]
      exact ⟨out, rfl, o2, by rw [o3, h3], o4, Or.inr ⟨hc.1, hc.2,
        (rgbOf_iff sized ok1 (.inl (by rw [c1, hch.1, h3])) (by rw [b1, hch.2]) out).1 o1⟩⟩
    · rw [if_neg hc]
      refine ⟨sized, rfl, ok1, by rw [c1, hch.1], by rw [b1, hch.2], Or.inl ⟨?_, rfl⟩⟩
      by_cases ht : p.toRgb = true
      · exact Or.inr (Classical.byContradiction (fun h => hc ⟨ht, h⟩))
      · exact Or.inl (by simpa using ht)
  obtain ⟨out, e2, ok2, c2, b2, hout⟩ := hcol
  refine ⟨out, ?_, ok2, c2, b2, .mk img sized hd r1 out hout, ?_⟩
  · rw [hdec]
    simp only [Res.andThen, e1, e2]
  · rintro out' ⟨img', sized', hd', hs', _, ho'⟩
    have hi' : img' = img := by
      have : some img' = some img := hd'.symm.trans hd
      simpa using this
    subst hi'
    have hsz : sized' = sized := by
      rcases r1 with ⟨n1, q1⟩ | ⟨v, a, b, n1, R1, q1⟩
      · rcases hs' with ⟨_, q2⟩ | ⟨v, a, b, n2, _, _⟩
        · rw [q1, q2]
        · rw [n1] at n2; simp at n2
      · rcases hs' with ⟨n2, _⟩ | ⟨v', a', b', n2, R2, q2⟩
        · rw [n1] at n2; simp at n2
        · rw [n1] at n2
          simp only [Option.some.injEq] at n2
          subst n2
          obtain ⟨ea, eb⟩ := resized_unique R1 R2
          subst ea; subst eb
          have : some sized' = some sized := q2.symm.trans q1
          simpa using this
    subst hsz
    rcases hout with ⟨t1, q1⟩ | ⟨t1, t2, q1⟩
    · rcases ho' with ⟨_, q2⟩ | ⟨u1, u2, _⟩
      · rw [q1, q2]
      · rcases t1 with t1 | t1
        · rw [t1] at u1; simp at u1
        · exact absurd t1 u2
    · rcases ho' with ⟨u1, _⟩ | ⟨_, _, q2⟩
      · rcases u1 with u1 | u1
        · rw [u1] at t1; simp at t1
        · exact absurd u1 t2
      · have h34 : sized'.chans = 3 ∨ sized'.chans = 4 := by
          rw [c1, hch.1] at t2 ⊢
          rcases hs.channels with h | h | h
          · exact absurd h t2
          · exact .inl h
          · exact .inr h
        have iff := rgbOf_iff sized' ok1 h34 (by rw [b1, hch.2])
        have : some out' = some out := ((iff out').2 q2).symm.trans ((iff out).2 q1)
        simpa using this

theorem centred_half (n m : Nat) (h : m ≤ n) : Centred n m ((n - m) / 2) := by
  unfold Centred; omega

theorem tdiv_two (n : Nat) : ((n : Int).tdiv 2).toNat = n / 2 := by
  have h := Int.ofNat_tdiv n 2
  have e : (n : Int).tdiv 2 = ((n / 2 : Nat) : Int) := h.symm
  rw [e, Int.toNat_natCast]

theorem cropStep_spec (p : ImgParams) (hh : p.height < 2 ^ 31) (hw : p.width < 2 ^ 31) (img : Img)
    (hc : img.chans = p.channels) (hb : img.byteSized = true) :
    (p.height ≤ img.rows → p.width ≤ img.cols →
      cropStep p img = .ok (some (regionBytes img ((img.rows - p.height) / 2) ((img.cols - p.width) / 2) p.height p.width))) ∧
    (¬ (p.height ≤ img.rows ∧ p.width ≤ img.cols) →
      cropStep p img = if p.bad = .error then .err .invalidArgument else .ok none) := by
  unfold cropStep
  have n1 : ¬ ((p.height : Int) < 0 ∨ (p.width : Int) < 0) := by omega
  rw [toInt32_small hh, toInt32_small hw, if_neg n1]
  unfold cropImage
  constructor
  · intro h1 h2
    have n2 : ¬ ((img.rows : Int) < (p.height : Int) ∨ (img.cols : Int) < (p.width : Int)) := by omega
    rw [if_neg n2]
    simp only
    rw [if_pos ⟨hc, hb⟩]
    have hy : (((img.rows : Int) - (p.height : Int)).tdiv 2).toNat = (img.rows - p.height) / 2 := by
      rw [← Int.ofNat_sub h1]
      exact tdiv_two _
    have hx : (((img.cols : Int) - (p.width : Int)).tdiv 2).toNat = (img.cols - p.width) / 2 := by
      rw [← Int.ofNat_sub h2]
      exact tdiv_two _
    rw [hy, hx]
    simp
  · intro h
    have n2 : (img.rows : Int) < (p.height : Int) ∨ (img.cols : Int) < (p.width : Int) := by omega
    rw [if_pos n2]

/-- What decoding one instance gives. -/
theorem decodeCore_spec (cv : Cv) (hcv : CvOk cv) (p : ImgParams) (insts : List Bytes) (hs : Supported cv p insts)
    (inst : Bytes) (hi : inst ∈ insts) :
    (∀ img, Prepared cv p inst img → p.height ≤ img.rows → p.width ≤ img.cols →
      ∃ y x, Centred img.rows p.height y ∧ Centred img.cols p.width x ∧
        decodeCore cv p inst = .ok (some (regionBytes img y x p.height p.width)) ∧
        ∀ r c, (img.px r c).length = p.channels) ∧
    (¬ GoodImage cv p inst → p.bad ≠ .error → decodeCore cv p inst = .ok none) ∧
    (¬ GoodImage cv p inst → p.bad = .error →
      ∃ e, decodeCore cv p inst = .err e ∧ (e = .invalidInstance ∨ e = .invalidArgument)) := by
  rw [decodeCore_mode cv p insts hs inst hi]
  unfold decodeMode
  cases hd : cv.imdecode (modeFor p.channels) (imageBits p inst) with
  | none =>
    have hbad : decodeImage cv p.bad (modeFor p.channels) (imageBits p inst) = badImage p.bad := by
      unfold decodeImage; rw [hd]
    rw [hbad]
    unfold badImage
    refine ⟨?_, ?_, ?_⟩
    · rintro img ⟨img', _, h, _⟩ _ _
      have : some img' = none := h.symm.trans hd
      simp at this
    · intro _ hb
      rw [if_neg hb]; rfl
    · intro _ hb
      rw [if_pos hb]; exact ⟨_, rfl, Or.inl rfl⟩
  | some img =>
    obtain ⟨out, e, ok, c, b, hp, hu⟩ := prepare_spec cv hcv p insts hs inst hi img hd
    rw [e]
    simp only [Res.andThen]
    obtain ⟨k1, k2⟩ := cropStep_spec p hs.height hs.width out c b
    refine ⟨?_, ?_, ?_⟩
    · intro img' hp' h1 h2
      rw [hu img' hp'] at h1 h2 ⊢
      refine ⟨_, _, centred_half _ _ h1, centred_half _ _ h2, k1 h1 h2, ?_⟩
      rw [← c]; exact ok.2.2.2.2 b
    · intro hg hb
      rw [k2 (fun h => hg ⟨out, hp, h.1, h.2⟩), if_neg hb]
    · intro hg hb
      rw [k2 (fun h => hg ⟨out, hp, h.1, h.2⟩), if_pos hb]
      exact ⟨_, rfl, Or.inr rfl⟩

end Mlio
