import Verif.Model.FileTree
import Verif.Model.DataStore
import Verif.Model.TextLineReader
import Verif.Model.ProtoReader
import Verif.Model.SchemaReader

/-!
# A program that lists files, makes a reader and reads

What is missing in the other modules to put them together: the data stores that `list_files` makes, and `infer_schema` of the
text line reader and of the RecordIO-protobuf reader as functions of the first instance.
-/

namespace Mlio

/-- `list_files`, `src/mlio/data_stores/file_list.cc` 89-144, for the entries that `fts_read` delivers, with the data stores that it makes
(132): as `listFiles`, and the constructor of `File` may throw. -/
def listStores (pattern : Option (Bytes → Option Bool)) (predicate : Option (Bytes → Bool)) (memoryMap : Bool) (c : Compression) :
    List FtsEntry → Res (List Store)
  | [] => .ok []
  | .error :: _ => .err .systemError
  | .other _ :: es => listStores pattern predicate memoryMap c es
  | .file p :: es =>
    match wanted pattern predicate p with
    | .err e => .err e
    | .ub w => .ub w
    | .ok false => listStores pattern predicate memoryMap c es
    | .ok true =>
      match makeFile p memoryMap c with
      | .err e => .err e
      | .ub w => .ub w
      | .ok f =>
        match listStores pattern predicate memoryMap c es with
        | .ok r => .ok (f :: r)
        | .err e => .err e
        | .ub w => .ub w

/-- `list_files` of paths, see `listTrees`. -/
def listTreeStores (pattern : Option (Bytes → Option Bool)) (predicate : Option (Bytes → Bool)) (memoryMap : Bool) (c : Compression)
    (sort : List (Bytes × List FtsEntry) → List (Bytes × List FtsEntry)) (roots : List (Bytes × FsNode)) : Res (List Store) :=
  if roots.isEmpty then .ub "fts_read without paths"
  else if roots.any fun r => r.1.isEmpty then .err .systemError
  else listStores pattern predicate memoryMap c ((sort (roots.map fun r => (r.1, walk sort r.1 r.2))).flatMap fun e => e.2)

/-- `Text_line_reader::infer_schema`, `src/mlio/text_line_reader.cc` 50-56: one attribute, `value`, whatever the instance. -/
def textInfer (batch : Nat) : Infer Inst Schema Unit := fun _ _ =>
  match makeAttr [118, 97, 108, 117, 101] .string [batch, 1] [] false with
  | .err e => (.err e, ())
  | .ub w => (.ub w, ())
  | .ok a =>
    match makeSchema [a] with
    | .ok s => (.ok (some s), ())
    | .err e => (.err e, ())
    | .ub w => (.ub w, ())

/-- `Recordio_protobuf_reader::infer_schema`, `src/mlio/recordio_protobuf_reader.cc` 125-164, from the bits of the instance; `parse` is
the library. -/
def messageInfer {V : Type} (parse : Bytes → Option (PRecord V)) (batch : Nat) : Infer Inst Schema Unit := fun _ i =>
  (protoSchema batch (i.map fun i => parse (i.bits.getD [])), ())

/-- The size of an instance in bytes, `Instance_batch::size_bytes`, `src/mlio/instance_batch.cc` 21-30 (the bits are there). -/
def instanceBytes (i : Inst) : Nat := (i.bits.getD []).length

end Mlio
