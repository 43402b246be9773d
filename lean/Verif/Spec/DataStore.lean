import Verif.Model.DataStore
import Verif.Spec.Gzip
import Verif.Spec.ProtoReader
import Verif.Spec.TextSource

/-!
# What opening a data store is meant to give
-/

namespace Mlio.Spec

/-- The URI is `s3://`, the bucket, `/` and the key. -/
def IsObjectUri (uri bucket key : Bytes) : Prop :=
  uri = [115, 51, 58, 47, 47] ++ bucket ++ [47] ++ key ∧ bucket ≠ [] ∧ (47 : UInt8) ∉ bucket ∧ key ≠ []

/-- The bytes behind a data store: those of the file, of the memory, or of the object. -/
def BytesBehind (w : World) : Store → Bytes → Prop
  | .file path _ _, x => ∃ sched, w.files path = some (x, sched)
  | .memory chunk _, x => x = chunk
  | .object uri version _, x => ∃ b k, IsObjectUri uri b k ∧ w.objects b k version = some x

/-- A data store holds the contents: as they are, or as a gzip file whose blocks, however the underlying stream delivers them,
are audible (see `Audible`). -/
def StoreHolds (z : Inflater) (w : World) (st : Store) (contents : Bytes) : Prop :=
  ∃ x, BytesBehind w st x ∧ x.length < 2 ^ 63 ∧
    ((st.compression = .none ∧ contents = x) ∨
      (st.compression = .gzip ∧ (∃ ms, GzFile z ms x contents) ∧
        ∀ s blocks, st.raw w = .ok s → Delivers rawIn s blocks → Audible z blocks))

/-- What the name of a file or an object says about its compression: `x.gz`, `x.bz2`, `x.zip`. -/
def NamedAs (name : Bytes) : Compression → Prop
  | .gzip => ∃ stem, stem ≠ [] ∧ name = stem ++ [46, 103, 122]
  | .bzip2 => ∃ stem, stem ≠ [] ∧ name = stem ++ [46, 98, 122, 50]
  | .zip => ∃ stem, stem ≠ [] ∧ name = stem ++ [46, 122, 105, 112]
  | .none => ∀ stem, stem ≠ [] → name ≠ stem ++ [46, 103, 122] ∧ name ≠ stem ++ [46, 98, 122, 50] ∧
      name ≠ stem ++ [46, 122, 105, 112]
  | .infer => False

/-- The compression that is used: the one asked for, or, if it is to be inferred, what the name says. -/
def Chosen (name : Bytes) (asked used : Compression) : Prop :=
  (asked ≠ .infer ∧ used = asked) ∨ (asked = .infer ∧ NamedAs name used)

end Mlio.Spec
