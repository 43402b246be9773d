import Verif.Spec.Image
import Verif.Spec.StoreReaders
import Verif.Model.ImageReader

/-!
# What the image reader is meant to deliver
-/

namespace Mlio.Spec

/-- A data store that is an image. -/
structure ImageStore where
  bytes : Bytes
  store : Store

/-- The store holds the bytes, less than 2 GiB.  A file that is not mapped or an object must not be empty. -/
structure ImageStore.Good (z : Inflater) (w : World) (t : ImageStore) : Prop where
  holds : StoreHolds z w t.store t.bytes
  size : t.bytes.length < 2 ^ 31
  empty : t.bytes = [] → InMemory t.store = true ∨ t.store.compression = .gzip

open Classical in
/-- All instances of the batch are good images. -/
noncomputable def goodImages (cv : Cv) (p : ImgParams) (q : Batch Bytes) : Bool :=
  decide (∀ i ∈ q.instances, GoodImage cv p i)

open Classical in
/-- The example holds the centres of the good images of the batch, in order, in its first rows; the remaining rows are zero
and are counted as padding. -/
def HoldsImages (cv : Cv) (p : ImgParams) (q : Batch Bytes) (ex : ImgExample) : Prop :=
  ∃ good, good = q.instances.filter (fun i => decide (GoodImage cv p i)) ∧
    ex.padding = q.size - good.length ∧
    ex.data.length = q.size * (p.height * (p.width * p.channels)) ∧
    (∀ k inst, good[k]? = some inst → ∃ img, Prepared cv p inst img ∧ RowIs p ex.data k img) ∧
    ∀ j, good.length * (p.height * (p.width * p.channels)) ≤ j → j < ex.data.length → ex.data[j]? = some 0

end Mlio.Spec
