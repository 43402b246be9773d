import Verif.Spec.Protobuf
import Verif.Spec.CoreReader
import Verif.Spec.RecordIO
import Verif.Spec.Utf8Stream
import Verif.Spec.CsvReader
import Verif.Model.ProtoReader

/-!
# What the RecordIO-protobuf reader is meant to deliver
-/

namespace Mlio.Spec

variable {V : Type}

/-- A data store of a dataset: the frames it holds, and what opening it gives. -/
structure ProtoFile (m : InStream) where
  frames : List Frame
  opened : Opened m

/-- The frames are valid, and the store delivers their bytes, if no read asks for more than 2 GiB or twice the size of the
data. -/
def ProtoFile.Good {m : InStream} (f : ProtoFile m) : Prop :=
  (∀ x ∈ f.frames, x.Valid) ∧
  match f.opened with
  | .memory x => x = recordioFile f.frames
  | .stream s => ∀ ns, (∀ n ∈ ns, n ≤ max (2 ^ 31) (2 * (recordioFile f.frames).length)) →
    TextReads false (recordioFile f.frames) ns (m.reads s ns)

/-- The dataset consists of the instances `is`, each in one frame or split over several. -/
def Instances {m : InStream} (files : List (ProtoFile m)) (is : List (Nat × Option Bytes)) : Prop :=
  Assembles .eof (items 0 (files.map fun f => .records (f.frames.map fun x => ⟨x.kind, x.payload⟩) none)).1 is .eof

/-- The messages of the instances; `none` if there is no message in the bits. -/
def messages (parse : Bytes → Option (PRecord V)) (is : List (Nat × Option Bytes)) : List (Option (PRecord V)) :=
  is.map fun i => parse (i.2.getD [])

open Classical in
/-- All messages of the batch conform to the schema. -/
noncomputable def goodMessages (s : Schema) (q : Batch (Option (PRecord V))) : Bool :=
  decide (∀ r ∈ q.instances, ¬ IsBad s r)

/-- The example holds the conforming messages of the batch, in order, one row for each; the padding is the number of the
remaining rows. -/
def HoldsMessages (zero : V) (s : Schema) (q : Batch (Option (PRecord V))) (ex : ProtoExample V) : Prop :=
  ex.padding = q.size - (conforming s q.instances).length ∧
  ex.features.length = s.attrs.length ∧
  ∀ (i : Nat) (a : Attr), s.attrs[i]? = some a →
    ∃ t, ex.features[i]? = some t ∧
      FeatureHolds zero (LastBad s q.instances) a q.size (rowsOf a (conforming s q.instances)) t

end Mlio.Spec
