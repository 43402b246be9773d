import Verif.Model.Image
import Verif.Model.StoreReaders

/-!
# The image reader as a whole

`src/mlio/image_reader.cc` and `src/mlio/instance.cc` over the data stores of a dataset: each data store is an image, or a
RecordIO file with an image in each record.
-/

namespace Mlio

/-- `size()` of the streams that data stores open, `none` if they are not seekable: `memory_input_stream.cc` 75-80,
`file_input_stream.cc` 95-109, `s3_input_stream.h` 50-53, `input_stream_base.h` 42-45. -/
def StoreStm.total {z : Inflater} : StoreStm z → Option Nat
  | .plain (.memory b _) => some b.length
  | .plain (.file b _) => some b.length
  | .plain (.object _ s) => some s.size
  | .inflated _ => none

/-- The loop of `read_stream`, `instance.cc` 87-122, over any stream (`readStreamLoop` is that over an abstract one):
`filled` are the bytes stored so far, `size` is the size of the block (`none`: not allocated).  The inner loop, 106-121, is that
of the chunk reader. -/
def loadLoop (m : InStream) (total : Option Nat) : (fuel : Nat) → m.σ → (filled : Bytes) → Option Nat → Res Bytes
  | 0, _, _, _ => .err .diverges
  | fuel + 1, s, filled, size =>
    let size' := nextBlockSize total.isSome (total.getD 0) size
    match gFill m (size' - filled.length) s (size' - filled.length) with
    | (.err e, _) => .err e
    | (.ub w, _) => .ub w
    | (.ok (got, eof), s') => if eof then .ok (filled ++ got) else loadLoop m total fuel s' (filled ++ got) (some size')

/-- `Instance::handle_errors`, `instance.cc` 127-147. -/
def loadHandle : Res Bytes → Res Bytes
  | .err e => if e.translated then .err .dataReader else .err e
  | r => r

/-- `Instance::load_bits_from_store`, `instance.cc` 37-77.  A file or an object that is not there is reported as an error of
the data reader (44-53); other errors of `open_read` are not translated.  A `Memory_input_stream` gives all of its bytes
at once (56-69). -/
def Store.load (z : Inflater) (w : World) (fuel : Nat) (st : Store) : Res Bytes :=
  match st.openRead z w with
  | .err e => if e = .systemError then .err .dataReader else .err e
  | .ub w => .ub w
  | .ok s =>
    match s.opened with
    | .memory x => .ok x
    | .stream s' => loadHandle (loadLoop (storeIn z) s.total fuel s' [] none)

/-- `Instance::bits`, `include/mlio/instance.h` 60-69. -/
def Inst.load (z : Inflater) (w : World) (fuel : Nat) (stores : List Store) (i : Inst) : Res Bytes :=
  match i.bits with
  | some b => .ok b
  | none =>
    match stores[i.store]? with
    | some st => st.load z w fuel
    | none => .ub "no such data store"

/-- The loop of `Image_reader::decode`, `image_reader.cc` 99-123, as `decodeImages`, with the bits that `bits()` (163, 166)
gives for each instance when its turn comes. -/
def decodeInsts (cv : Cv) (p : ImgParams) (load : Inst → Res Bytes) (stride : Nat) : List Inst → (buf : Bytes) →
    (pos num : Nat) → Res (Option (Bytes × Nat))
  | [], buf, _, num => .ok (some (buf, num))
  | i :: is, buf, pos, num =>
    match load i with
    | .err e => .err e
    | .ub w => .ub w
    | .ok bits =>
      match decodeCore cv p bits with
      | .ok (some x) =>
        if buf.length < pos + x.length then .ub "write beyond the tensor"
        else if buf.length < pos + stride then .ub "span offset out of range"
        else decodeInsts cv p load stride is (writeAt buf pos x) (pos + stride) (num + 1)
      | .ok none =>
        match p.bad with
        | .skip => .ok none
        | .skipWarn => .ok none
        | .pad => decodeInsts cv p load stride is buf pos num
        | .padWarn => decodeInsts cv p load stride is buf pos num
        | .error => .err .invalidArgument
      | .err e => .err e
      | .ub w => .ub w

/-- `Image_reader::decode`, `image_reader.cc` 87-141. -/
def imageDecode (cv : Cv) (p : ImgParams) (load : Inst → Res Bytes) (q : Batch Inst) : Res (Option ImgExample) :=
  match decodeInsts cv p load (batchStride p) q.instances (List.replicate (q.size * batchStride p) 0) 0 0 with
  | .ok (some (data, num)) => .ok (some ⟨data, q.size - num⟩)
  | .ok none => .ok none
  | .err e => .err e
  | .ub w => .ub w

/-- The `Core_instance_reader` of an `Image_reader`: `make_record_reader`, `image_reader.cc` 61-71: no record reader, the data
store is not opened, or one for RecordIO. -/
def imageCore (z : Inflater) (w : World) (recordio : Bool) (fuel : Nat) (stores : List Store) : Machine Inst :=
  coreReader (recMachine (storeIn z) recordioDecode fuel)
    (stores.map fun st => if recordio then st.openWith z w (fun s => .ok (some s.opened.reader)) else .ok none) fuel

/-- `infer_schema`, `image_reader.cc` 73-85, whatever the first instance is. -/
def imageSchema (batch : Nat) (p : ImgParams) : Res Schema :=
  match makeAttr [118, 97, 108, 117, 101] .uint8 [batch, p.height, p.width, p.channels] [] false with
  | .err e => .err e
  | .ub w => .ub w
  | .ok a => makeSchema [a]

end Mlio
