import Verif.Model.CsvDecode
import Verif.Model.Slice

/-!
# The image reader: `src/mlio/image_reader.cc`

OpenCV is a parameter (`Cv`) as far as decoding and resizing are concerned; the colour conversion and the copy of a
region are modelled.  `int` has 32 bits.
-/

namespace Mlio

/-- The conversion of a `std::size_t` to `int` (`std::copy` in 51, `static_cast` in 299). -/
def toInt32 (n : Nat) : Int :=
  if n % 2 ^ 32 < 2 ^ 31 then ((n % 2 ^ 32 : Nat) : Int) else ((n % 2 ^ 32 : Nat) : Int) - 2 ^ 32

/-- The value of a signed 32 bit operation. -/
def intRes (i : Int) : Res Int :=
  if -2 ^ 31 ≤ i ∧ i < 2 ^ 31 then .ok i else .ub "signed overflow"

/-- `cv::Mat` as far as it matters: the size, the number of channels, whether a sample has one byte, and the bytes of a
pixel. -/
structure Img where
  rows : Nat
  cols : Nat
  chans : Nat
  byteSized : Bool
  px : Nat → Nat → List UInt8

/-- How `cv::imdecode` is called, `image_reader.cc` 175-190. -/
inductive CvMode where
  | grayscale | color | unchanged
  deriving DecidableEq, Repr

/-- The parts of OpenCV that are not modelled.  `none` is an exception, or for `imdecode` also an empty image. -/
structure Cv where
  imdecode : CvMode → Bytes → Option Img
  resize : Img → (width height : Int) → Option Img

/-- `Image_reader_params` (`include/mlio/image_reader.h` 43-54), `Data_reader_params::bad_example_handling` and `warn_bad_instances()`. -/
structure ImgParams where
  channels : Nat
  height : Nat
  width : Nat
  resize : Option Nat := none
  toRgb : Bool := false
  recordio : Bool := false
  bad : BadHandling := .error
  warn : Bool := false

/-- What all the failing steps but `resize` and `crop` do: raise, if the user wants so, or report a bad instance. -/
def badImage (bad : BadHandling) : Res (Option Img) :=
  if bad = .error then .err .invalidInstance else .ok none

/-- The arguments of `cv::Size` (width, height), `image_reader.cc` 296-311. -/
def resizeTarget (rv rows cols : Int) : Res (Int × Int) :=
  if rows > cols then
    match intRes (rv * rows) with
    | .ok p => if cols = 0 then .ub "division by zero" else .ok (rv, p.tdiv cols)
    | .err e => .err e
    | .ub w => .ub w
  else
    match intRes (rv * cols) with
    | .ok p => if rows = 0 then .ub "division by zero" else .ok (p.tdiv rows, rv)
    | .err e => .err e
    | .ub w => .ub w

/-- `Image_reader::resize`, 294-334.  The message (316) is made with the format `{2:n}` for a text, which makes `fmt::format` throw `format_error`. -/
def resizeImage (cv : Cv) (bad : BadHandling) (warn : Bool) (value : Nat) (img : Img) : Res (Option Img) :=
  match resizeTarget (toInt32 value) img.rows img.cols with
  | .ok (w, h) =>
    match cv.resize img w h with
    | some r => .ok (some r)
    | none => if warn ∨ bad = .error then .err .formatError else .ok none
  | .err e => .err e
  | .ub w => .ub w

/-- `cv::cvtColor` with `COLOR_BGR2RGB`: three or four channels become three, in the opposite order; an exception
otherwise. -/
def bgr2rgb (img : Img) : Option Img :=
  if img.chans = 3 ∨ img.chans = 4 then
    some { img with
      chans := 3
      px := fun r c =>
        let p := img.px r c
        let s := p.length / img.chans
        (p.drop (2 * s)).take s ++ (p.drop s).take s ++ p.take s }
  else none

/-- `Image_reader::decode_image`, 238-292. -/
def decodeImage (cv : Cv) (bad : BadHandling) (mode : CvMode) (bits : Bytes) : Res (Option Img) :=
  match cv.imdecode mode bits with
  | none => badImage bad
  | some img => if mode = .unchanged ∧ img.chans ≠ 4 then .err .invalidArgument else .ok (some img)

/-- The bytes of a region of an image. -/
def regionBytes (img : Img) (y x h w : Nat) : List UInt8 :=
  (List.range h).flatMap fun r => (List.range w).flatMap fun c => img.px (y + r) (x + c)

/-- `Image_reader::crop`, 336-390: what is written into the destination, a matrix with `chans` channels of bytes; `none` for
a bad instance.  If the image has another type than the destination, `copyTo` gives the destination new memory
(`Mat::create`), and nothing is written into the tensor. -/
def cropImage (bad : BadHandling) (chans : Nat) (h w : Int) (img : Img) : Res (Option (List UInt8)) :=
  if (img.rows : Int) < h ∨ (img.cols : Int) < w then
    if bad = .error then .err .invalidArgument else .ok none
  else
    let y := ((img.rows : Int) - h).tdiv 2
    let x := ((img.cols : Int) - w).tdiv 2
    if img.chans = chans ∧ img.byteSized then .ok (some (regionBytes img y.toNat x.toNat h.toNat w.toNat))
    else .ok (some [])

/-- `if (!step()) return false;`, exceptions pass through. -/
def Res.andThen {α β : Type} : Res (Option α) → (α → Res (Option β)) → Res (Option β)
  | .ok (some a), f => f a
  | .ok none, _ => .ok none
  | .err e, _ => .err e
  | .ub w, _ => .ub w

/-- The optional resizing, 202-206. -/
def resizeStep (cv : Cv) (p : ImgParams) (img : Img) : Res (Option Img) :=
  match p.resize with
  | some v => resizeImage cv p.bad p.warn v img
  | none => .ok (some img)

/-- The optional colour conversion, 208-231. -/
def colorStep (p : ImgParams) (img : Img) : Res (Option Img) :=
  if p.toRgb ∧ img.chans ≠ 1 then
    match bgr2rgb img with
    | some r => .ok (some r)
    | none => badImage p.bad
  else .ok (some img)

/-- The destination and the crop, 233-235.  Dimensions that become negative are treated as undefined. -/
def cropStep (p : ImgParams) (img : Img) : Res (Option (List UInt8)) :=
  if toInt32 p.height < 0 ∨ toInt32 p.width < 0 then .ub "negative image size"
  else cropImage p.bad p.channels (toInt32 p.height) (toInt32 p.width) img

/-- `Image_reader::decode_core`, 197-235. -/
def decodeMode (cv : Cv) (p : ImgParams) (mode : CvMode) (bits : Bytes) : Res (Option (List UInt8)) :=
  (((decodeImage cv p.bad mode bits).andThen (resizeStep cv p)).andThen (colorStep p)).andThen (cropStep p)

/-- The `switch` over the number of channels, 178-195. -/
def decodeBits (cv : Cv) (p : ImgParams) (bits : Bytes) : Res (Option (List UInt8)) :=
  if toInt32 p.channels = 1 then decodeMode cv p .grayscale bits
  else if toInt32 p.channels = 3 then decodeMode cv p .color bits
  else if toInt32 p.channels = 4 then decodeMode cv p .unchanged bits
  else .err .invalidArgument

/-- `Image_reader::decode_core`, 156-236: the bytes written into the tensor; `none` for a bad instance.  `subslice(24)` (163)
throws if there is less.  The size of the image data is assumed to fit into an `int` (170). -/
def decodeCore (cv : Cv) (p : ImgParams) (inst : Bytes) : Res (Option (List UInt8)) :=
  if p.recordio then
    if inst.length < 24 then .err .invalidArgument else decodeBits cv p (inst.drop 24)
  else decodeBits cv p inst

/-- A span of bytes written at a position. -/
def writeAt (buf : Bytes) (pos : Nat) (x : Bytes) : Bytes := buf.take pos ++ x ++ buf.drop (pos + x.length)

/-- The loop of `Image_reader::decode`, 99-123: `pos` is where `bits` begins.  `none`: the example is skipped. -/
def decodeImages (cv : Cv) (p : ImgParams) (stride : Nat) : List Bytes → (buf : Bytes) → (pos num : Nat) →
    Res (Option (Bytes × Nat))
  | [], buf, _, num => .ok (some (buf, num))
  | inst :: insts, buf, pos, num =>
    match decodeCore cv p inst with
    | .ok (some x) =>
      if buf.length < pos + x.length then .ub "write beyond the tensor"
      else if buf.length < pos + stride then .ub "span offset out of range"
      else decodeImages cv p stride insts (writeAt buf pos x) (pos + stride) (num + 1)
    | .ok none =>
      match p.bad with
      | .skip => .ok none
      | .skipWarn => .ok none
      | .pad => decodeImages cv p stride insts buf pos num
      | .padWarn => decodeImages cv p stride insts buf pos num
      | .error => .err .invalidArgument
    | .err e => .err e
    | .ub w => .ub w

/-- The one tensor of an example and its padding. -/
structure ImgExample where
  data : Bytes
  padding : Nat

/-- The stride of the batch dimension (91) is the product of the others (`default_strides`). -/
def batchStride (p : ImgParams) : Nat := p.height * (p.width * p.channels)

/-- `Image_reader::decode`, 87-141, and `make_tensor`, 143-154; `size` is the size of the batch.  The sizes are assumed to
be representable. -/
def decodeBatchImages (cv : Cv) (p : ImgParams) (size : Nat) (insts : List Bytes) : Res (Option ImgExample) :=
  match decodeImages cv p (batchStride p) insts (List.replicate (size * batchStride p) 0) 0 0 with
  | .ok (some (data, num)) => .ok (some ⟨data, size - num⟩)
  | .ok none => .ok none
  | .err e => .err e
  | .ub w => .ub w

end Mlio
