import Verif.Spec.Protobuf
import Verif.Spec.Image
import Verif.Model.Reports

/-!
# When a message about a bad instance is true
-/

namespace Mlio.Spec

variable {V : Type}

/-- The message has a feature of this name with this value. -/
def HasFeature (r : Option (PRecord V)) (n : Bytes) (v : PValue V) : Prop := ∃ x, r = some x ∧ (n, v) ∈ x.entries

/-- The schema has this attribute, under this name. -/
def HasAttr (s : Schema) (n : Bytes) (a : Attr) : Prop := a ∈ s.attrs ∧ a.name = n

/-- What the messages say, read as English. -/
def Truthful (s : Schema) (r : Option (PRecord V)) : ProtoFault → Prop
  -- has {actual} feature(s) while it is expected to have {expected} features
  | .features actual expected => actual ≠ expected ∧ s.attrs.length = expected ∧ ∃ x, r = some x ∧ x.entries.length = actual
  -- contains a corrupt RecordIO-protobuf message
  | .corrupt => r = none
  -- has an unknown feature named {n}
  | .unknown n => (∃ v, HasFeature r n v) ∧ ∀ a, ¬ HasAttr s n a
  -- the feature {n} has an unexpected data type
  | .noTensor n => ∃ v, HasFeature r n v ∧ ∀ dt t, v ≠ .tensor dt t
  -- has the data type {actual} while it is expected to have the data type {expected}
  | .dataType n actual expected => actual ≠ expected ∧ ∃ t a, HasFeature r n (.tensor actual t) ∧ HasAttr s n a ∧ a.dt = expected
  -- is sparse while it is expected to be dense
  | .sparseNotDense n => ∃ dt t a, HasFeature r n (.tensor dt t) ∧ HasAttr s n a ∧ Sparse t ∧ a.sparse = false
  -- is dense while it is expected to be sparse
  | .denseNotSparse n => ∃ dt t a, HasFeature r n (.tensor dt t) ∧ HasAttr s n a ∧ ¬ Sparse t ∧ a.sparse = true
  -- has the shape {actual} while it is expected to have the shape {expected}
  | .shape n actual expected => actual ≠ expected ∧
      ∃ dt t a, HasFeature r n (.tensor dt t) ∧ HasAttr s n a ∧ dimsOf t = actual ∧ a.shape.tail = expected
  -- has {count} values but a shape of {shape}
  | .values n count shape => count ≠ numElements shape ∧
      ∃ dt t a, HasFeature r n (.tensor dt t) ∧ HasAttr s n a ∧ t.values.length = count ∧ a.shape.tail = shape
  -- has {keys} key(s) but {values} value(s)
  | .keys n keys values => keys ≠ values ∧ ∃ dt t, HasFeature r n (.tensor dt t) ∧ t.keys.length = keys ∧ t.values.length = values
  -- has one or more invalid keys
  | .invalidKeys n => ∃ dt t a, HasFeature r n (.tensor dt t) ∧ HasAttr s n a ∧ ∃ k ∈ t.keys, numElements a.shape.tail ≤ k

/-- What is wrong with the image in an instance: there is none, or it is too small once it has been prepared. -/
inductive ImageWrong (cv : Cv) (p : ImgParams) (inst : Bytes) : ImgFault → Prop where
  | decode (h : cv.imdecode (modeFor p.channels) (if p.recordio then inst.drop 24 else inst) = none) : ImageWrong cv p inst .decode
  | small (img : Img) (h : Prepared cv p inst img) (hs : img.rows < p.height ∨ img.cols < p.width) :
      ImageWrong cv p inst (.small img.rows img.cols p.height p.width)

/-- The instances up to and with the first bad one: all of them, if there is none. -/
def upToFirst (bad : Inst → Bool) (is : List Inst) : List Inst := is.take (is.findIdx bad + 1)

/-- The instances that are looked at: the first bad one ends the matter, unless bad ones are padded. -/
def examined (h : BadHandling) (bad : Inst → Bool) (is : List Inst) : List Inst :=
  match h with
  | .pad => is
  | .padWarn => is
  | _ => upToFirst bad is

/-- The messages about instances, one for each about which there is something to say, with its data store and number, in order. -/
def instReports {φ : Type} (warn : Bool) (said : Inst → Option φ) (is : List Inst) : List (Report φ) :=
  if warn then is.filterMap fun i => (said i).map (.inst i.store i.index) else []

/-- The message about an example that has bad instances. -/
def batchReport {φ : Type} (h : BadHandling) (example_ bad : Nat) : List (Report φ) :=
  if bad = 0 then []
  else
    match h with
    | .skipWarn => [.skipped example_]
    | .padWarn => [.padded example_ bad]
    | _ => []

end Mlio.Spec
