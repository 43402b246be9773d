import Verif.Spec.SchemaReader
import Verif.Spec.StoreReaders
import Verif.Spec.ProtoReader
import Verif.Spec.FileTree

/-!
# What a program sees that lists files, makes a reader and loops over epochs
-/

namespace Mlio.Spec

/-- What the calls of `read_example` and `peek_example` of one epoch return, if the batches of the epoch are `all`, of which those that are
`good` can be decoded, and `bad` says what happens with the others: each call returns an example that holds the first batch
that can be delivered and is not consumed; what is peeked is returned again; the end comes only when all batches
that can be delivered are consumed (and no batch is bad, if that is an error); an error only because of a bad batch, if that is an
error; after the end or an error the same again. -/
structure BatchSession {β ε : Type} (holds : Batch β → ε → Prop) (good : Batch β → Bool) (bad : BadHandling) (all : List (Batch β))
    (hist : List (ReadCall × Res (Option ε))) : Prop where
  next : ∀ i c e, hist[i]? = some (c, .ok (some e)) →
    ∃ q, (deliverable good bad all)[consumed (hist.take i)]? = some q ∧ holds q e
  again : ∀ i c o o', hist[i]? = some (.peek, o) → hist[i + 1]? = some (c, o') → o' = o
  ends : ∀ i c, hist[i]? = some (c, .ok none) → consumed (hist.take i) = (deliverable good bad all).length ∧
    (bad = .error → ∀ q ∈ all, good q = true)
  error : ∀ (i : Nat) c e, hist[i]? = some (c, Res.err e) → e = .invalidInstance ∧ bad = .error ∧ ∃ q ∈ all, good q = false
  defined : ∀ (i : Nat) c w, hist[i]? ≠ some (c, Res.ub w)
  sticky : ∀ (i j : Nat) c (o : Res (Option ε)) c' o', hist[i]? = some (c, o) → (∀ e, o ≠ .ok (some e)) → i ≤ j →
    hist[j]? = some (c', o') → o' = o

/-- The number of bytes of the lines in the batches. -/
def lineBytes (bs : List (Batch Bytes)) : Nat := ((bs.flatMap fun q => q.instances).map List.length).sum

end Mlio.Spec
