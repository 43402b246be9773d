import Verif.Model.Protobuf
import Verif.Model.TextLineReader

/-!
# The RecordIO-protobuf reader as a whole

`src/mlio/recordio_protobuf_reader.cc`: the way from data stores to instances and examples.  The
protobuf library is a parameter: `parse` gives the message that `ParseFromArray` makes of the bits of an instance, or nothing.
-/

namespace Mlio

variable {V : Type}

/-- `f` is a decode function of the reader: every outcome is one that `decode` can have for the batch. -/
def ProtoDecodes (parse : Bytes → Option (PRecord V)) (zero : V) (h : BadHandling) (s : Schema)
    (f : Batch Inst → Except Err (Option (ProtoExample V))) : Prop :=
  ∀ q, ∃ o, ProtoBatch zero h s q.size (q.instances.map fun i => parse (i.bits.getD [])) o ∧ f q = toDecode (fun _ => o) q

/-! ## Record readers over any stream -/

/-- What `Data_store::open_read` returns: a stream that supports zero-copy reads (`Memory_input_stream`), given by its
contents, or any other. -/
inductive Opened (m : InStream) where
  | memory (bytes : Bytes)
  | stream (s : m.σ)

/-- A record reader over an `In_memory_chunk_reader` or a `Default_chunk_reader`. -/
inductive RecReader (m : InStream) where
  | memory (r : MemReader)
  | stream (r : GReader m)

/-- `make_record_reader`, `recordio_protobuf_reader.cc` 120-123, with `make_chunk_reader`,
`record_readers/detail/chunk_reader.cc` 30-47. -/
def Opened.reader {m : InStream} : Opened m → RecReader m
  | .memory x => .memory ⟨x, []⟩
  | .stream s => .stream (GReader.init chunkSize s)

/-- `read_record_core` of either, for a decoder. -/
def RecReader.read {m : InStream} (dec : Bytes → Bool → Dec Record) (fuel : Nat) :
    RecReader m → Res (Option Record) × RecReader m
  | .memory r => ((r.read dec).1, .memory (r.read dec).2)
  | .stream r => ((r.read dec fuel).1, .stream (r.read dec fuel).2)

/-- The record readers as a class (`init` and `reset` are not used, see `Verif/Model/CoreReader.lean`). -/
def recMachine (m : InStream) (dec : Bytes → Bool → Dec Record) (fuel : Nat) : Machine Record where
  σ := RecReader m
  init := .memory ⟨[], []⟩
  read := RecReader.read dec fuel
  reset := id

/-- The `Core_instance_reader` of a `Recordio_protobuf_reader` for a dataset of data stores. -/
def protoCore (m : InStream) (fuel : Nat) (stores : List (Opened m)) : Machine Inst :=
  coreReader (recMachine m recordioDecode fuel) (stores.map fun x => .ok (some x.reader)) fuel

/-- `ensure_schema_inferred`, `parallel_data_reader.cc` 284-291, for a reader whose instances come from `r`: the schema is
made from the first instance, which is peeked (`r` includes the base class). -/
def protoInfer (parse : Bytes → Option (PRecord V)) (batch : Nat) (r : Machine Inst) : Res (Option Schema) :=
  match (r.read r.init).1 with
  | .err e => .err e
  | .ub w => .ub w
  | .ok none => protoSchema (V := V) batch none
  | .ok (some i) => protoSchema batch (some (parse (i.bits.getD [])))

end Mlio
