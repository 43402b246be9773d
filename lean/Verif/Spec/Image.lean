import Verif.Model.Image

/-!
# What the image reader is meant to do
-/

namespace Mlio.Spec

/-- An edge of length `n` of the image is cut down to `m`, from `start` on: inside the image and centred up to one pixel. -/
def Centred (n m start : Nat) : Prop := start + m ≤ n ∧ 2 * start ≤ n - m ∧ n - m ≤ 2 * start + 1

/-- The sizes after resizing: the shorter edge is `v`, and the aspect ratio is the same, the longer edge being rounded
down. -/
def Resized (v rows cols rows' cols' : Nat) : Prop :=
  min rows' cols' = v ∧
  (rows > cols → cols' = v ∧ rows' * cols ≤ v * rows ∧ v * rows < (rows' + 1) * cols) ∧
  (rows ≤ cols → rows' = v ∧ cols' * rows ≤ v * cols ∧ v * cols < (cols' + 1) * rows)

/-- A sound image: not empty, each pixel has all its channels. -/
def ImgOk (img : Img) : Prop :=
  0 < img.rows ∧ img.rows < 2 ^ 31 ∧ 0 < img.cols ∧ img.cols < 2 ^ 31 ∧
  (img.byteSized → ∀ r c, (img.px r c).length = img.chans)

/-- What OpenCV guarantees: `imdecode` gives a sound image of the mode that was asked for; `resize` gives an image of
the size that was asked for, with the channels of the old one. -/
structure CvOk (cv : Cv) : Prop where
  decoded : ∀ m b img, cv.imdecode m b = some img → ImgOk img
  gray : ∀ b img, cv.imdecode .grayscale b = some img → img.chans = 1 ∧ img.byteSized = true
  color : ∀ b img, cv.imdecode .color b = some img → img.chans = 3 ∧ img.byteSized = true
  resizes : ∀ img w h, 0 < w → w < 2 ^ 31 → 0 < h → h < 2 ^ 31 → ∃ r, cv.resize img w h = some r
  resized : ∀ img w h r, cv.resize img w h = some r →
    (r.rows : Int) = h ∧ (r.cols : Int) = w ∧ r.chans = img.chans ∧ r.byteSized = img.byteSized ∧ (ImgOk img → ImgOk r)

/-- The mode for a number of channels. -/
def modeFor : Nat → CvMode
  | 1 => .grayscale
  | 3 => .color
  | _ => .unchanged

/-- The same image with red and blue exchanged, and without a fourth channel. -/
def RgbOf (img out : Img) : Prop :=
  out.rows = img.rows ∧ out.cols = img.cols ∧ out.chans = 3 ∧ out.byteSized = img.byteSized ∧
  ∀ r c, ∀ red green blue rest, img.px r c = blue :: green :: red :: rest → out.px r c = [red, green, blue]

/-- The image in an instance after decoding, resizing and colour conversion; `none` if there is none. -/
inductive Prepared (cv : Cv) (p : ImgParams) (inst : Bytes) : Img → Prop where
  | mk (img sized : Img) (h : cv.imdecode (modeFor p.channels) (if p.recordio then inst.drop 24 else inst) = some img)
      (hs : (p.resize = none ∧ sized = img) ∨
        ∃ v rows' cols', p.resize = some v ∧ Resized v img.rows img.cols rows' cols' ∧
          cv.resize img (cols' : Nat) (rows' : Nat) = some sized)
      (out : Img) (ho : (p.toRgb = false ∨ sized.chans = 1) ∧ out = sized ∨
        (p.toRgb = true ∧ sized.chans ≠ 1 ∧ RgbOf sized out)) : Prepared cv p inst out

/-- Row `k` of the tensor is the centre of the image, in the order height, width, channel. -/
def RowIs (p : ImgParams) (data : Bytes) (k : Nat) (img : Img) : Prop :=
  ∃ y x, Centred img.rows p.height y ∧ Centred img.cols p.width x ∧
    ∀ r c ch, r < p.height → c < p.width → ch < p.channels →
      data[((k * p.height + r) * p.width + c) * p.channels + ch]? = (img.px (y + r) (x + c))[ch]?

/-- The instance holds an image that is large enough. -/
def GoodImage (cv : Cv) (p : ImgParams) (inst : Bytes) : Prop :=
  ∃ img, Prepared cv p inst img ∧ p.height ≤ img.rows ∧ p.width ≤ img.cols

/-- What the reader supports: 1, 3 or 4 channels, sizes that fit into an `int`, also during resizing; with four channels
images must have four channels of one byte, and are not converted. -/
structure Supported (cv : Cv) (p : ImgParams) (insts : List Bytes) : Prop where
  channels : p.channels = 1 ∨ p.channels = 3 ∨ p.channels = 4
  height : p.height < 2 ^ 31
  width : p.width < 2 ^ 31
  alpha : p.channels = 4 → p.toRgb = false
  header : p.recordio = true → ∀ inst ∈ insts, 24 ≤ inst.length
  images : ∀ inst ∈ insts, ∀ img,
    cv.imdecode (modeFor p.channels) (if p.recordio then inst.drop 24 else inst) = some img →
      (p.channels = 4 → img.chans = 4 ∧ img.byteSized = true) ∧
      ∀ v, p.resize = some v → 0 < v ∧ v * max img.rows img.cols < 2 ^ 31

end Mlio.Spec
