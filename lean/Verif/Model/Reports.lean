import Verif.Model.ProtoReader
import Verif.Model.Image

/-!
# What the RecordIO-protobuf reader and the image reader say about bad instances

The messages of `src/mlio/recordio_protobuf_reader.cc` 479-850 and `src/mlio/image_reader.cc` 87-390, which `Verif/Model/Protobuf.lean` and
`Verif/Model/Image.lean` leave out.  The text that is logged is also that of the exception, where one is thrown.
-/

namespace Mlio

/-- A message: about an instance of a data store, or about an example (`recordio_protobuf_reader.cc` 300-313, `image_reader.cc` 112-130). -/
inductive Report (φ : Type) where
  | inst (store index : Nat) (fault : φ)
  | skipped (example_ : Nat)
  | padded (example_ bad : Nat)
  deriving DecidableEq, Repr

/-! ## RecordIO-protobuf -/

/-- What a message of `Decoder` says about an instance; in the order of `recordio_protobuf_reader.cc`: 516-521, 544-547, 569-573, 607-611,
630-636, 652-662, 688-695, 770-776, 806-812 and 834-838. -/
inductive ProtoFault where
  | features (actual expected : Nat)
  | corrupt
  | unknown (name : Bytes)
  | noTensor (name : Bytes)
  | dataType (name : Bytes) (actual expected : DataType)
  | sparseNotDense (name : Bytes)
  | denseNotSparse (name : Bytes)
  | shape (name : Bytes) (actual expected : List Nat)
  | values (name : Bytes) (count : Nat) (shape : List Nat)
  | keys (name : Bytes) (keys values : Nat)
  | invalidKeys (name : Bytes)
  deriving DecidableEq, Repr

/-- The message of `Decoder::decode_feature`, 561-713, `copy_to_tensor`, 760-799, and `append_to_builder`, 801-850: as `featureRun`. -/
def featureFault {V : Type} (s : Schema) (name : Bytes) (v : PValue V) : Option ProtoFault :=
  match s.getIndex name with
  | none => some (.unknown name)
  | some i =>
    match s.attrs[i]? with
    | none => none
    | some a =>
      match v with
      | .bytes => some (.noTensor a.name)
      | .unset => some (.noTensor a.name)
      | .tensor dt t =>
        if a.dt ≠ dt then some (.dataType a.name dt a.dt)
        else if isSparse t ≠ a.sparse then
          -- 652-661
          if a.sparse then some (.sparseNotDense a.name) else some (.denseNotSparse a.name)
        else if !shapeEquals a.shape t then
          -- 678-695
          some (.shape a.name (if t.shape.isEmpty then [t.values.length] else t.shape) a.shape.tail)
        else if a.sparse then
          if t.keys.length ≠ t.values.length then some (.keys a.name t.keys.length t.values.length)
          else
            match keysOk a.shape a.strides t.keys with
            | .ok false => some (.invalidKeys a.name)
            | _ => none
        else if a.strides.head? ≠ some (t.values.length : Int) then some (.values a.name t.values.length a.shape.tail)
        else none

/-- The loops of `Decoder::decode`, 492-505: as `featuresRun`. -/
def featuresFault {V : Type} (s : Schema) : List (Bytes × PValue V) → Option ProtoFault
  | [] => none
  | (n, v) :: es =>
    match featureFault s n v with
    | some f => some f
    | none => featuresFault s es

/-- `Decoder::decode`, 479-533, with `parse_proto`, 535-559: as `recordRun`. -/
def recordFault {V : Type} (s : Schema) : Option (PRecord V) → Option ProtoFault
  | none => some .corrupt
  | some r =>
    match featuresFault s r.entries with
    | some f => some f
    | none => if r.entries.length = s.attrs.length then none else some (.features r.entries.length s.attrs.length)

/-- The messages of `decode_serial`, 343-368: as `protoSerial`. -/
def protoReports {V : Type} (parse : Bytes → Option (PRecord V)) (warn : Bool) (h : BadHandling) (s : Schema) : List Inst → List (Report ProtoFault)
  | [] => []
  | i :: is =>
    (if warn then (recordFault s (parse (i.bits.getD []))).toList.map (.inst i.store i.index) else []) ++
      match (recordRun (h == .error) s (parse (i.bits.getD []))).2 with
      | .ok true => protoReports parse warn h s is
      | .ok false => if h = .pad ∨ h = .padWarn then protoReports parse warn h s is else []
      | _ => []

/-- The message about the example, `recordio_protobuf_reader.cc` 299-315 and `image_reader.cc` 110-131: `read` is the number of instances read, or nothing
if the example is skipped. -/
def exampleReport {φ : Type} (h : BadHandling) (example_ instances : Nat) (read : Option Nat) : List (Report φ) :=
  match read with
  | none => if h = .skipWarn then [.skipped example_] else []
  | some n => if instances ≠ n then if h = .padWarn then [.padded example_ (instances - n)] else [] else []

/-- The messages of `Recordio_protobuf_reader::decode`, 265-341, when it runs serially. -/
def protoLogs {V : Type} (parse : Bytes → Option (PRecord V)) (zero : V) (warn : Bool) (h : BadHandling) (s : Schema) (q : Batch Inst) :
    List (Report ProtoFault) :=
  protoReports parse warn h s q.instances ++
    match initSlots zero q.size s.attrs with
    | .ok ss =>
      match protoSerial h s (q.instances.map fun i => parse (i.bits.getD [])) 0 ss with
      | .ok r => exampleReport h q.index q.instances.length r.1
      | _ => []
    | _ => []

/-! ## Images -/

/-- What a message of `Image_reader` says about an instance: `image_reader.cc` 247-250 and 266-269, 215-218, 340-347.  (Those of `resize`, see `resizeImage`,
and of a failure of the copy itself, 371-375, are never made.) -/
inductive ImgFault where
  | decode
  | color
  | small (rows cols height width : Int)
  deriving DecidableEq, Repr

/-- The messages of `decode_core`, 197-235: as `decodeMode`. -/
def modeFault (cv : Cv) (p : ImgParams) (mode : CvMode) (bits : Bytes) : Option ImgFault :=
  match cv.imdecode mode bits with
  | none => some .decode
  | some img =>
    if mode = .unchanged ∧ img.chans ≠ 4 then none
    else
      match resizeStep cv p img with
      | .ok (some img) =>
        match colorStep p img with
        | .ok (some img) =>
          if (img.rows : Int) < toInt32 p.height ∨ (img.cols : Int) < toInt32 p.width then
            some (.small img.rows img.cols (toInt32 p.height) (toInt32 p.width))
          else none
        | _ => some .color
      | _ => none

/-- The messages of `decode_core`, 156-236: as `decodeCore` and `decodeBits`. -/
def imageFault (cv : Cv) (p : ImgParams) (inst : Bytes) : Option ImgFault :=
  if p.recordio ∧ inst.length < 24 then none
  else
    let bits := if p.recordio then inst.drop 24 else inst
    if toInt32 p.channels = 1 then modeFault cv p .grayscale bits
    else if toInt32 p.channels = 3 then modeFault cv p .color bits
    else if toInt32 p.channels = 4 then modeFault cv p .unchanged bits
    else none

/-- The messages of the loop of `Image_reader::decode`, 99-123: as `decodeImages`. -/
def imageReports (cv : Cv) (p : ImgParams) : List Inst → List (Report ImgFault)
  | [] => []
  | i :: is =>
    (if p.warn then (imageFault cv p (i.bits.getD [])).toList.map (.inst i.store i.index) else []) ++
      match decodeCore cv p (i.bits.getD []) with
      | .ok (some _) => imageReports cv p is
      | .ok none => if p.bad = .pad ∨ p.bad = .padWarn then imageReports cv p is else []
      | _ => []

/-- The messages of `Image_reader::decode`, 87-141, for instances whose bits have been read. -/
def imageLogs (cv : Cv) (p : ImgParams) (q : Batch Inst) : List (Report ImgFault) :=
  imageReports cv p q.instances ++
    match decodeImages cv p (batchStride p) (q.instances.map fun i => i.bits.getD []) (List.replicate (q.size * batchStride p) 0) 0 0 with
    | .ok r => exampleReport p.bad q.index q.instances.length (r.map Prod.snd)
    | _ => []

end Mlio
