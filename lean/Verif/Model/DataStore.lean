import Verif.Model.Gzip
import Verif.Model.Stores
import Verif.Model.ProtoReader
import Verif.Model.TextSource

/-!
# Opening data stores

`src/mlio/data_stores/file.cc`, `src/mlio/data_stores/in_memory_store.cc`, `src/mlio/data_stores/s3_object.cc`,
`src/mlio/data_stores/compression.cc`, `src/mlio/memory/file_mapped_memory_block.cc`.

Left out: `Sagemaker_pipe` (see `Verif/Model/Sagemaker.lean`), logging, `id` and `repr`.
-/

namespace Mlio

/-- What the process can reach: the contents of files (with the way in which `read(2)` delivers them), and of the versions of
objects; the version `[]` is the current one. -/
structure World where
  files : Bytes → Option (Bytes × List Nat)
  objects : (bucket key version : Bytes) → Option Bytes

/-- A data store: `File` (`data_stores/file.h`), `In_memory_store`, `S3_object`. -/
inductive Store where
  | file (path : Bytes) (memoryMap : Bool) (compression : Compression)
  | memory (chunk : Bytes) (compression : Compression)
  | object (uri version : Bytes) (compression : Compression)
  deriving DecidableEq, Repr

/-- The constructor of `File`, `file.cc` 33-41. -/
def makeFile (path : Bytes) (memoryMap : Bool) (c : Compression) : Res Store :=
  match validateFilePath path with
  | .err e => .err e
  | .ub w => .ub w
  | .ok () => .ok (.file path memoryMap (if c = .infer then inferCompression path else c))

/-- The constructor of `In_memory_store`, `in_memory_store.cc` 30-36. -/
def makeInMemory (chunk : Bytes) (c : Compression) : Res Store :=
  if c = .infer then .err .notSupported else .ok (.memory chunk c)

/-- The constructor of `S3_object`, `s3_object.cc` 36-50; `validate_s3_object_uri` (85-87) splits the URI. -/
def makeObject (uri version : Bytes) (c : Compression) : Res Store :=
  match splitKeyUri uri with
  | .err e => .err e
  | .ub w => .ub w
  | .ok _ => .ok (.object uri version (if c = .infer then inferCompression uri else c))

/-- The streams that data stores open, each with the bytes it is over. -/
inductive RawStream where
  | memory (block : Bytes) (s : MemStream)
  | file (contents : Bytes) (s : FileStream)
  | object (contents : Bytes) (s : S3Stream)

/-- `read(destination)` of these classes. -/
def rawIn : InStream where
  σ := RawStream
  read
    | .memory b s, n => ((s.readInto b n).1, .memory b (s.readInto b n).2)
    | .file b s, n => ((s.readInto b n).1, .file b (s.readInto b n).2)
    | .object b s, n => ((s.readInto b n).1, .object b (s.readInto b n).2)

/-- A `Gzip_inflate_stream` over streams of a class, as a stream.  A caller that is told of more bytes than were written
goes on with bytes that nobody wrote. -/
def gzIn (m : InStream) (z : Inflater) : InStream where
  σ := GzStream m z
  read g n :=
    match g.read n with
    | (.ok (k, b), g') => (if k = b.length then .ok b else .ub "bytes that were not written", g')
    | (.err e, g') => (.err e, g')
    | (.ub w, g') => (.ub w, g')

/-- The streams that `open_read` returns. -/
inductive StoreStm (z : Inflater) where
  | plain (s : RawStream)
  | inflated (g : GzStream rawIn z)

/-- They are streams. -/
def storeIn (z : Inflater) : InStream where
  σ := StoreStm z
  read
    | .plain s, n => ((rawIn.read s n).1, .plain (rawIn.read s n).2)
    | .inflated g, n => (((gzIn rawIn z).read g n).1, .inflated ((gzIn rawIn z).read g n).2)

/-- The stream before it is inflated: `file.cc` 48-54 (`File_mapped_memory_block`, `file_mapped_memory_block.cc` 37-75, is the
whole file in memory), `in_memory_store.cc` 44, `s3_object.cc` 58 with `s3_input_stream.cc` 86-99.  A file or an object that is
not there is an error of the system. -/
def Store.raw (w : World) : Store → Res RawStream
  | .file path memoryMap _ =>
    match w.files path with
    | none => .err .systemError
    | some (x, sched) =>
      if memoryMap then .ok (.memory x (MemStream.new ⟨0, x.length⟩)) else .ok (.file x (FileStream.new sched))
  | .memory chunk _ => .ok (.memory chunk (MemStream.new ⟨0, chunk.length⟩))
  | .object uri version _ =>
    match splitKeyUri uri with
    | .err e => .err e
    | .ub w => .ub w
    | .ok (b, k) =>
      match w.objects b k version with
      | none => .err .systemError
      | some x => .ok (.object x (S3Stream.new x))

/-- `compression_`. -/
def Store.compression : Store → Compression
  | .file _ _ c => c
  | .memory _ c => c
  | .object _ _ c => c

/-- `make_inflate_stream`, `compression.cc` 28-45, and the tests before it is called. -/
def makeInflate (z : Inflater) (c : Compression) (s : RawStream) : Res (StoreStm z) :=
  match c with
  | .none => .ok (.plain s)
  | .infer => .ok (.plain s)
  | .gzip => .ok (.inflated (GzStream.new (m := rawIn) z s))
  | .bzip2 => .err .notSupported
  | .zip => .err .notSupported

/-- `open_read`: `file.cc` 43-60, `in_memory_store.cc` 38-50, `s3_object.cc` 52-64. -/
def Store.openRead (z : Inflater) (w : World) (st : Store) : Res (StoreStm z) :=
  match st.raw w with
  | .err e => .err e
  | .ub w => .ub w
  | .ok s => makeInflate z st.compression s

/-- How record readers see the stream (`make_chunk_reader`, `chunk_reader.cc` 30-47): only a `Memory_input_stream` supports
zero-copy reads (`memory_input_stream.h` 61-64); it gives all that is left. -/
def StoreStm.opened {z : Inflater} : StoreStm z → Opened (storeIn z)
  | .plain (.memory b s) => .memory ((b.drop s.pos.toNat).take (s.src.fin - s.pos).toNat)
  | s => .stream s

/-- `seek(0)` of the streams that data stores open: `memory_input_stream.cc` 59-66, `file_input_stream.cc` 68-88,
`s3_input_stream.cc` 45-54. -/
def RawStream.seek0 : RawStream → Res Unit × RawStream
  | .memory b s => ((s.seek 0).1, .memory b (s.seek 0).2)
  | .file b s => ((s.seek b 0).1, .file b (s.seek b 0).2)
  | .object b s => ((s.seek 0).1, .object b (s.seek 0).2)

/-- The class of the streams that data stores open.  A `Gzip_inflate_stream` is not seekable
(`input_stream_base.h` 42-45); only a `Memory_input_stream` supports zero-copy reads (`memory_input_stream.h` 61-64), and
gives all that is left. -/
def storeSrc (z : Inflater) : SrcClass where
  toInStream := storeIn z
  seek0
    | .plain s => some (s.seek0.1, .plain s.seek0.2)
    | .inflated _ => none
  whole
    | .plain (.memory b s) => some ((b.drop s.pos.toNat).take (s.src.fin - s.pos).toNat)
    | _ => none

end Mlio
