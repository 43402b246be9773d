import Verif.Model.Stores
import Verif.Spec.S3Service

/-!
# The stream of an S3 object while the object changes and requests fail

Models `src/mlio/s3_client.cc` 60-85 and 138-183 and `src/mlio/streams/s3_input_stream.cc`.  `Model/Stores.lean` has the same stream for an object that
stays as it is and a service that always answers.

Simplified: an answer arrives as a whole or the request fails; the library's own retries are part of the answer.  The headers of a request are
their meaning, not their text.
-/

namespace Mlio
open Spec

/-- `throw_s3_error`, `s3_client.cc` 60-85. -/
def s3Code : S3Error → SysCode
  | .serviceUnavailable => .hostUnreachable
  | .accessDenied => .permissionDenied
  | .resourceNotFound | .noSuchBucket | .noSuchKey => .noSuchFile
  | .requestTimeout => .timedOut
  | .other => .ioError

/-- A request, with the fault of the connection, and `check_s3_error`, `s3_client.cc` 89-95. -/
def s3Request {α : Type} (answer : Except S3Error α) (fault : Option S3Error) : Except SysCode α :=
  match fault with
  | some e => .error (s3Code e)
  | none =>
    match answer with
    | .ok a => .ok a
    | .error e => .error (s3Code e)

/-- `S3_client::read_object`, `s3_client.cc` 138-164: the range is `offset` to `offset + n` (144), of which at most `n` bytes are read (161). -/
def clientRead (s : Service) (o : ObjName) (version : Bytes) (offset n : Nat) (fault : Option S3Error) : Except SysCode Bytes :=
  match s3Request (s.get o version offset (offset + n)) fault with
  | .ok b => .ok (b.take n)
  | .error e => .error e

/-- `S3_client::read_object_size`, `s3_client.cc` 166-183. -/
def clientSize (s : Service) (o : ObjName) (version : Bytes) (fault : Option S3Error) : Except SysCode Nat :=
  s3Request (s.head o version) fault

/-- `S3_input_stream` with the name of its object, `s3_input_stream.h` 38-89. -/
structure ObjStream where
  name : ObjName
  version : Bytes
  st : S3Stream
  deriving DecidableEq, Repr

/-- `make`, `s3_input_stream.cc` 86-99: the only request is that for the size. -/
def ObjStream.open (s : Service) (uri version : Bytes) (fault : Option S3Error) : Res (Except SysCode ObjStream) :=
  match splitKeyUri uri with
  | .err e => .err e
  | .ub w => .ub w
  | .ok o =>
    match clientSize s o version fault with
    | .error c => .ok (.error c)
    | .ok n => .ok (.ok ⟨o, version, ⟨false, n, 0⟩⟩)

/-- `read`, `s3_input_stream.cc` 28-43. -/
def ObjStream.read (s : Service) (t : ObjStream) (n : Nat) (fault : Option S3Error) : S3Out × ObjStream :=
  if t.st.closed then (.closed, t)
  else if n = 0 ∨ t.st.position = t.st.size then (.bytes [], t)
  else
    match clientRead s t.name t.version t.st.position (min (t.st.size - t.st.position) n) fault with
    | .ok b => (.bytes b, { t with st := { t.st with position := t.st.position + b.length } })
    | .error c => (.fails c, t)

/-- `seek`, `s3_input_stream.cc` 45-54. -/
def ObjStream.seek (t : ObjStream) (p : Nat) : S3Out × ObjStream :=
  if t.st.closed then (.closed, t)
  else if p > t.st.size then (.fails .invalidArgument, t)
  else (.done, { t with st := { t.st with position := p } })

/-- One call; `read(size)` is that of `Input_stream_base`, `size` and `position` are `s3_input_stream.h` 50-58, `close` is
`s3_input_stream.cc` 56-59. -/
def ObjStream.call (s : Service) (t : ObjStream) (fault : Option S3Error) : StreamCall → S3Out × ObjStream
  | .readInto n => t.read s n fault
  | .read n => t.read s n fault
  | .seek p => t.seek p
  | .size => (.num t.st.size, t)
  | .position => (.num t.st.position, t)
  | .close => (.done, { t with st := { t.st with closed := true } })

/-- A history: what the calls in it give. -/
def ObjStream.run : Service → ObjStream → List S3Event → List S3Out
  | _, _, [] => []
  | s, t, .change c :: es => ObjStream.run (s.apply c) t es
  | s, t, .call k f :: es => (t.call s f k).1 :: ObjStream.run s (t.call s f k).2 es

end Mlio
