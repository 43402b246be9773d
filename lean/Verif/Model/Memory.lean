import Verif.Model.Slice
import Verif.Model.StreamReader

/-!
# Memory blocks, memory streams and the loading of instances

`src/mlio/memory/heap_memory_block.cc`, `src/mlio/memory/file_backed_memory_block.cc`,
`src/mlio/memory/file_backed_memory_allocator.cc`, `src/mlio/memory/util.cc`,
`src/mlio/streams/memory_input_stream.cc`, `src/mlio/streams/file_input_stream.cc`, `src/mlio/instance.cc`.

Not modelled: failures of `realloc`, `mmap`, `mremap`, `ftruncate` and of system calls in general.
-/

namespace Mlio

/-! ## Slices as bytes -/

/-- The bytes of a slice of the block `b`: `*beg_`, …, `*(end_ - 1)`. -/
def PSlice.bytes (b : Bytes) (s : PSlice) : Bytes := (b.drop s.beg.toNat).take (s.fin - s.beg).toNat

/-! ## Memory streams -/

/-- `Memory_input_stream`, `include/mlio/streams/memory_input_stream.h` 73-75: the slice `source_` with the position `pos_`,
both as offsets into the block. -/
structure MemStream where
  src : PSlice
  pos : Int
  closed : Bool
  deriving DecidableEq, Repr

/-- The constructor, `memory_input_stream.h` 36-37 and 74: the stream starts at the beginning of the slice. -/
def MemStream.new (s : PSlice) : MemStream := ⟨s, s.beg, false⟩

/-- `advance_position`, `memory_input_stream.cc` 89-92. -/
def MemStream.advance (m : MemStream) (distance : Nat) : MemStream :=
  { m with pos := min (m.pos + asSsize distance) m.src.fin }

/-- The bytes in `[a, z)` of the block; reading outside of the block is undefined. -/
def readRange (b : Bytes) (a z : Int) : Res Bytes :=
  if a > z then .ub "reversed range"
  else if a < 0 ∨ z > b.length then .ub "read outside of the block"
  else .ok ((b.drop a.toNat).take (z - a).toNat)

/-- `read(destination)`, `memory_input_stream.cc` 27-42, for a destination of `n` bytes: the bytes copied. -/
def MemStream.readInto (b : Bytes) (m : MemStream) (n : Nat) : Res Bytes × MemStream :=
  if m.closed then (.err .streamError, m)
  else if n = 0 then (.ok [], m)
  else
    let m' := m.advance n
    (readRange b m.pos m'.pos, m')

/-- `read(size)`, `memory_input_stream.cc` 44-57. -/
def MemStream.read (b : Bytes) (m : MemStream) (n : Nat) : Res Bytes × MemStream :=
  if m.closed then (.err .streamError, m)
  else if n = 0 then (.ok [], m)
  else
    let m' := m.advance n
    match m.src.range m.pos m'.pos with
    | .ok s => (.ok (s.bytes b), m')
    | .err e => (.err e, m')
    | .ub w => (.ub w, m')

/-- `seek`, `memory_input_stream.cc` 59-66. -/
def MemStream.seek (m : MemStream) (position : Nat) : Res Unit × MemStream :=
  if m.closed then (.err .streamError, m)
  else (.ok (), { m with pos := m.src.beg }.advance position)

/-- `close`, `memory_input_stream.cc` 68-73. -/
def MemStream.close (m : MemStream) : MemStream := { m with src := ⟨0, 0⟩, closed := true }

/-- `size`, `memory_input_stream.cc` 75-80; the difference is converted to `std::size_t`. -/
def MemStream.size (m : MemStream) : Res Nat :=
  if m.closed then .err .streamError else .ok ((m.src.fin - m.src.beg) % 2 ^ 64).toNat

/-- `position`, `memory_input_stream.cc` 82-87. -/
def MemStream.position (m : MemStream) : Res Nat :=
  if m.closed then .err .streamError else .ok ((m.pos - m.src.beg) % 2 ^ 64).toNat

/-- A call on a stream. -/
inductive StreamCall where
  | readInto (n : Nat)
  | read (n : Nat)
  | seek (n : Nat)
  | size
  | position
  | close
  deriving DecidableEq, Repr

/-- What a call gives. -/
inductive StreamOut where
  | bytes (r : Res Bytes)
  | unit (r : Res Unit)
  | num (r : Res Nat)
  deriving DecidableEq, Repr

/-- One call on a memory stream. -/
def MemStream.call (b : Bytes) (m : MemStream) : StreamCall → StreamOut × MemStream
  | .readInto n => let (r, m') := m.readInto b n; (.bytes r, m')
  | .read n => let (r, m') := m.read b n; (.bytes r, m')
  | .seek n => let (r, m') := m.seek n; (.unit r, m')
  | .size => (.num m.size, m)
  | .position => (.num m.position, m)
  | .close => (.unit (.ok ()), m.close)

/-- A sequence of calls. -/
def MemStream.calls (b : Bytes) : MemStream → List StreamCall → List StreamOut
  | _, [] => []
  | m, c :: cs => (m.call b c).1 :: MemStream.calls b (m.call b c).2 cs

/-! ## File streams -/

/-- `File_input_stream`, `include/mlio/streams/file_input_stream.h` 60-64, over a file with fixed contents: the offset
of the descriptor, the cached size (`0`: not yet known), and for each coming `read` the largest number of bytes that
the operating system delivers at once (at least one). -/
structure FileStream where
  offset : Nat
  cached : Nat
  open_ : Bool
  sched : List Nat
  deriving DecidableEq, Repr

/-- The constructor, `file_input_stream.cc` 36-51. -/
def FileStream.new (sched : List Nat) : FileStream := ⟨0, 0, true, sched⟩

/-- The number of bytes that `read(2)` delivers if they are there. -/
def FileStream.cap (f : FileStream) (n : Nat) : Nat :=
  match f.sched with
  | [] => n
  | k :: _ => min n (max k 1)

/-- `read(2)`: at least one byte unless at the end, at most what fits. -/
def FileStream.sysRead (b : Bytes) (f : FileStream) (n : Nat) : Bytes × FileStream :=
  let got := (b.drop f.offset).take (f.cap n)
  (got, { f with offset := f.offset + got.length, sched := f.sched.tail })

/-- `read`, `file_input_stream.cc` 53-66. -/
def FileStream.readInto (b : Bytes) (f : FileStream) (n : Nat) : Res Bytes × FileStream :=
  if !f.open_ then (.err .streamError, f)
  else if n = 0 then (.ok [], f)
  else
    let (got, f') := f.sysRead b n
    (.ok got, f')

/-- `size`, `file_input_stream.cc` 95-109. -/
def FileStream.size (b : Bytes) (f : FileStream) : Res Nat × FileStream :=
  if !f.open_ then (.err .streamError, f)
  else
    let s := if f.cached = 0 then b.length else f.cached
    (.ok s, { f with cached := s })

/-- `seek`, `file_input_stream.cc` 68-88; `lseek` succeeds within the file. -/
def FileStream.seek (b : Bytes) (f : FileStream) (position : Nat) : Res Unit × FileStream :=
  if !f.open_ then (.err .streamError, f)
  else
    match f.size b with
    | (.ok s, f') => (.ok (), { f' with offset := min position s })
    | (.err e, f') => (.err e, f')
    | (.ub w, f') => (.ub w, f')

/-- `position`, `file_input_stream.cc` 111-130. -/
def FileStream.position (f : FileStream) : Res Nat :=
  if !f.open_ then .err .streamError else .ok f.offset

/-- One call on a file stream.  `read(size)` is that of `Input_stream_base`, `input_stream_base.cc` 28-35. -/
def FileStream.call (b : Bytes) (f : FileStream) : StreamCall → StreamOut × FileStream
  | .readInto n => let (r, f') := f.readInto b n; (.bytes r, f')
  | .read n => let (r, f') := f.readInto b n; (.bytes r, f')
  | .seek n => let (r, f') := f.seek b n; (.unit r, f')
  | .size => let (r, f') := f.size b; (.num r, f')
  | .position => (.num f.position, f)
  | .close => (.unit (.ok ()), { f with open_ := false })

/-- A sequence of calls. -/
def FileStream.calls (b : Bytes) : FileStream → List StreamCall → List StreamOut
  | _, [] => []
  | f, c :: cs => (f.call b c).1 :: FileStream.calls b (f.call b c).2 cs

/-! ## Resizing of memory blocks -/

/-- The kinds of memory blocks. -/
inductive BlockKind where
  /-- `Heap_memory_block` -/
  | heap
  /-- `File_backed_memory_block` -/
  | fileBacked
  /-- `Hybrid_memory_block`, with `file_backed_` and `oversize_threshold_` -/
  | hybrid (fileBacked : Bool) (threshold : Nat)
  /-- a custom `Mutable_memory_block` that cannot be resized; those of the library all can -/
  | fixed
  deriving DecidableEq, Repr

/-- A memory block with its contents. -/
structure Block where
  kind : BlockKind
  data : Bytes
  deriving DecidableEq, Repr

/-- `realloc`, as used in `heap_memory_block.cc` 27-34 and 59-71: the common prefix is kept, the rest is indeterminate,
here some byte of `junk`. -/
def reallocBytes (junk : Nat → UInt8) (old : Bytes) (size : Nat) : Bytes :=
  (old.take size) ++ (List.range' old.length (size - old.length)).map junk

/-- `File_backed_memory_block::resize`, `file_backed_memory_block.cc` 66-120, on Linux: the file is truncated or
extended with zeros, and mapped again. -/
def ftruncateBytes (old : Bytes) (size : Nat) : Bytes :=
  (old.take size) ++ List.replicate (size - old.length) 0

/-- `resize` of a block: `heap_memory_block.cc` 59-71, `file_backed_memory_block.cc` 66-120,
`file_backed_memory_allocator.cc` 73-97 (`Hybrid_memory_block`; note that the test is on the old size).  What a
custom block that reports not to be resizable does is unknown; an exception is assumed, and `resizeBlock` does not call
it. -/
def Block.resize (junk : Nat → UInt8) (b : Block) (size : Nat) : Res Block :=
  match b.kind with
  | .heap => .ok { b with data := reallocBytes junk b.data size }
  | .fileBacked => .ok { b with data := ftruncateBytes b.data size }
  | .hybrid true _ => .ok { b with data := ftruncateBytes b.data size }
  | .hybrid false threshold =>
    if b.data.length > threshold then
      if b.data.length > size then .ub "write beyond the new block"
      else .ok ⟨.hybrid true threshold, b.data ++ List.replicate (size - b.data.length) 0⟩
    else .ok { b with data := reallocBytes junk b.data size }
  | .fixed => .err .notSupported

/-- `resizable()`. -/
def Block.resizable (b : Block) : Bool := b.kind != .fixed

/-- `memory_allocator().allocate(size)` with the two allocators of the library: `heap_memory_allocator.cc` and
`File_backed_memory_allocator::allocate`, `file_backed_memory_allocator.cc` 127-133. -/
inductive Allocator where
  | heap
  | fileBacked (threshold : Nat)
  deriving DecidableEq, Repr

/-- See `Allocator`. -/
def Allocator.allocate (junk : Nat → UInt8) : Allocator → Nat → Block
  | .heap, size => ⟨.heap, reallocBytes junk [] size⟩
  | .fileBacked t, size =>
    if size > t then ⟨.fileBacked, List.replicate size 0⟩ else ⟨.hybrid false t, reallocBytes junk [] size⟩

/-- `resize_memory_block`, `src/mlio/memory/util.cc` 27-45. -/
def resizeBlock (junk : Nat → UInt8) (al : Allocator) (b : Block) (size : Nat) : Res Block :=
  if b.resizable then b.resize junk size
  else
    let nb := al.allocate junk size
    let n := if size > b.data.length then b.data.length else size
    .ok { nb with data := b.data.take n ++ nb.data.drop n }

/-- A sequence of calls of `resize`. -/
def Block.resizes (junk : Nat → UInt8) : Block → List Nat → Res Block
  | b, [] => .ok b
  | b, s :: ss =>
    match b.resize junk s with
    | .ok b' => Block.resizes junk b' ss
    | .err e => .err e
    | .ub w => .ub w

/-! ## Loading an instance -/

/-- What is known of the stream of a data store: its kind and its contents. -/
structure StoreStream where
  zeroCopy : Bool
  seekable : Bool
  stream : Stream

/-- The size of the block for the next round, `instance.cc` 88-101. -/
def nextBlockSize (seekable : Bool) (total : Nat) : Option Nat → Nat
  | some n => n * 2
  | none => if seekable then total else 0x100000

/-- The loop of `read_stream`, `instance.cc` 87-122, over the contents of the block: `filled` are the bytes stored so
far, `size` is the size of the block (`none`: not allocated). -/
def readStreamLoop (seekable : Bool) (total : Nat) : (fuel : Nat) → Stream → (filled : Bytes) → Option Nat →
    Res Bytes
  | 0, _, _, _ => .err .diverges
  | fuel + 1, s, filled, size =>
    let size' := nextBlockSize seekable total size
    match fillLoop (size' - filled.length) s (size' - filled.length) with
    | none => .err .diverges
    | some (got, s', eof) =>
      if eof then .ok (filled ++ got) else readStreamLoop seekable total fuel s' (filled ++ got) (some size')

/-- `Instance::load_bits_from_store`, `instance.cc` 37-77, for a stream that was opened.  A zero copy stream delivers
`short` bytes less than asked for (the code allows for that), after `seek(0)` it is read like any other. -/
def loadBits (fuel : Nat) (short : Nat) (st : StoreStream) : Res Bytes :=
  if st.zeroCopy && (st.stream.data.take (st.stream.data.length - short)).length == st.stream.data.length then
    .ok (st.stream.data.take (st.stream.data.length - short))
  else readStreamLoop st.seekable st.stream.data.length fuel st.stream [] none

end Mlio
