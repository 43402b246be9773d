import Verif.Model.DataStore

/-!
# Arrow files over data stores and records

`src/mlio-py/mlio/integ/arrow/arrow_file.cc`, `arrow_util.h`, `arrow_buffer.cc`, `module.cc`.

Trusted and left out: Arrow itself, of which only `RandomAccessFile::ReadAt` (which `Arrow_file` does not override, and which
is a `Seek` followed by a `Read` under a lock) is written down, the memory layout of `pyarrow.NativeFile` (`module.cc` 38-49),
`supports_zero_copy`, memory that runs out for sizes below `2 ^ 63`, and Python-defined streams.
-/

namespace Mlio

/-- The error codes of `arrow::Status` that are used. -/
inductive ArrowStatus where
  | outOfMemory
  | invalid
  | ioError
  | notImplemented
  | unknownError
  deriving DecidableEq, Repr

/-- What a call on an Arrow file gives. -/
inductive ArrowOut where
  | bytes (b : Bytes)
  | num (n : Int)
  | done
  | flag (b : Bool)
  | failed (s : ArrowStatus)
  | ub (what : String)
  deriving DecidableEq, Repr

/-- Calls on an Arrow file; numbers are of the type `int64_t`. -/
inductive ArrowCall where
  /-- `Read(nbytes, out)` -/
  | read (n : Int)
  /-- `Read(nbytes)` -/
  | readBuffer (n : Int)
  /-- `ReadAt(position, nbytes, out)` -/
  | readAt (p n : Int)
  /-- `ReadAt(position, nbytes)` -/
  | readBufferAt (p n : Int)
  | seek (p : Int)
  | tell
  | getSize
  | close
  | closed
  deriving DecidableEq, Repr

/-- `convert_exception`, `arrow_util.h` 32-55: `Inflate_error` is a `Stream_error` (`stream_error.h` 42), all others are a
`std::exception`. -/
def convertException : Err → ArrowStatus
  | .invalidArgument => .invalid
  | .streamError => .ioError
  | .inflateError => .ioError
  | .notSupported => .notImplemented
  | _ => .unknownError

/-- `arrow_boundary`, `arrow_util.h` 59-81, with the conversion of sizes to `int64_t` and of slices to buffers
(`arrow_file.cc` 52, 63, 88, 97; `arrow_buffer.cc` 25-33). -/
def arrowBoundary : StreamOut → ArrowOut
  | .bytes (.ok b) => .bytes b
  | .bytes (.err e) => .failed (convertException e)
  | .bytes (.ub w) => .ub w
  | .unit (.ok ()) => .done
  | .unit (.err e) => .failed (convertException e)
  | .unit (.ub w) => .ub w
  | .num (.ok n) => .num (asSsize n)
  | .num (.err e) => .failed (convertException e)
  | .num (.ub w) => .ub w

/-- `static_cast<std::size_t>` of an `int64_t`, `arrow_file.cc` 46, 61, 72. -/
def asSizeT (n : Int) : Nat := (n % 2 ^ 64).toNat

/-- The calls of the streams that data stores open: `memory_input_stream.cc`, `file_input_stream.cc`, `s3_input_stream.cc`. -/
def RawStream.call : RawStream → StreamCall → StreamOut × RawStream
  | .memory b s, k => ((s.call b k).1, .memory b (s.call b k).2)
  | .file b s, k => ((s.call b k).1, .file b (s.call b k).2)
  | .object b s, k => ((s.call b k).1, .object b (s.call b k).2)

/-- `closed`: `memory_input_stream.h` 51-54, `file_input_stream.h` 48-51, `s3_input_stream.h` 60-63. -/
def RawStream.closed : RawStream → Bool
  | .memory _ s => s.closed
  | .file _ s => !s.open_
  | .object _ s => s.closed

/-- `Read(nbytes, out)`, `arrow_file.cc` 41-54.  A negative number of bytes becomes a span that is larger than any object, into
which the stream writes all it has. -/
def RawStream.arrowRead (r : RawStream) (n : Int) : ArrowOut × RawStream :=
  if r.closed then (.failed .invalid, r)
  else if n < 0 then (.ub "the destination has a negative size", r)
  else (arrowBoundary (r.call (.readInto (asSizeT n))).1, (r.call (.readInto (asSizeT n))).2)

/-- `read(size)` fails in the allocator if more than half of the address space is asked for (`input_stream_base.cc` 30,
`heap_memory_block.cc` 27-34); memory streams do not allocate. -/
def RawStream.allocates : RawStream → Bool
  | .memory _ _ => false
  | _ => true

/-- `Read(nbytes)`, `arrow_file.cc` 56-65. -/
def RawStream.arrowReadBuffer (r : RawStream) (n : Int) : ArrowOut × RawStream :=
  if r.closed then (.failed .invalid, r)
  else if r.allocates ∧ n < 0 then (.failed .outOfMemory, r)
  else (arrowBoundary (r.call (.read (asSizeT n))).1, (r.call (.read (asSizeT n))).2)

/-- `Seek`, `arrow_file.cc` 67-74. -/
def RawStream.arrowSeek (r : RawStream) (p : Int) : ArrowOut × RawStream :=
  if r.closed then (.failed .invalid, r)
  else (arrowBoundary (r.call (.seek (asSizeT p))).1, (r.call (.seek (asSizeT p))).2)

/-- A call: `arrow_file.cc` 41-117.  `ReadAt` is that of Arrow: `Seek`, and, if it succeeds, `Read`. -/
def RawStream.arrowCall (r : RawStream) : ArrowCall → ArrowOut × RawStream
  | .read n => r.arrowRead n
  | .readBuffer n => r.arrowReadBuffer n
  | .readAt p n => if (r.arrowSeek p).1 = .done then (r.arrowSeek p).2.arrowRead n else r.arrowSeek p
  | .readBufferAt p n => if (r.arrowSeek p).1 = .done then (r.arrowSeek p).2.arrowReadBuffer n else r.arrowSeek p
  | .seek p => r.arrowSeek p
  | .tell => if r.closed then (.failed .invalid, r) else (arrowBoundary (r.call .position).1, (r.call .position).2)
  | .getSize => if r.closed then (.failed .invalid, r) else (arrowBoundary (r.call .size).1, (r.call .size).2)
  | .close => (.done, (r.call .close).2)
  | .closed => (.flag r.closed, r)

/-- Calls one after another. -/
def RawStream.arrowCalls : RawStream → List ArrowCall → List ArrowOut
  | _, [] => []
  | r, k :: ks => (r.arrowCall k).1 :: (r.arrowCall k).2.arrowCalls ks

/-- `as_arrow_file(store)`, `module.cc` 68-73, with the constructor, `arrow_file.cc` 32-37. -/
def asArrowFile (z : Inflater) (w : World) (st : Store) : Res RawStream :=
  match st.openRead z w with
  | .err e => .err e
  | .ub w => .ub w
  | .ok (.plain r) => .ok r
  | .ok (.inflated _) => .err .invalidArgument

/-- `as_arrow_file(record)`, `module.cc` 75-80: the payload is a slice of a block. -/
def asArrowRecord (block : Bytes) (payload : PSlice) : RawStream := .memory block (MemStream.new payload)

end Mlio
