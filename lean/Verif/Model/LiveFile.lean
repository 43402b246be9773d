import Verif.Basic

/-!
# Local files that change while they are read

`file.cc` 43-60, `file_input_stream.cc` 36-66, `file_mapped_memory_block.cc` 37-75, `memory_input_stream.cc` 27-42, `instance.cc` 37-125.  What the system does is that of Linux: a page
of a mapped file shows what the file holds when it is looked at, zeros behind the end in the last page, and a signal (`SIGBUS`) on pages behind that; files
that are not on a disk (block devices, the files in `/proc`) have a size of zero.  This was tried with a small C program in the sandbox, but for
block devices.  Without compression, errors of the system, and calls other than `read`.
-/

namespace Mlio

/-- A file at a moment: its bytes, and whether `fstat` tells how many there are. -/
structure LiveFile where
  bytes : Bytes
  sized : Bool
  deriving DecidableEq, Repr

/-- `st_size`, `file_mapped_memory_block.cc` 63. -/
def LiveFile.statSize (f : LiveFile) : Nat := if f.sized then f.bytes.length else 0

/-- A `File_input_stream` with the offset of its descriptor, or a `Memory_input_stream` over a `File_mapped_memory_block` with `size_` and `pos_`. -/
inductive LiveStream where
  | file (pos : Nat)
  | mapped (size pos : Nat)
  deriving DecidableEq, Repr

/-- `File::open_read`, `file.cc` 48-58, without compression: `file_mapped_memory_block.cc` 51-75 and `file_input_stream.cc` 36-51. -/
def openLive (memoryMap : Bool) (f : LiveFile) : LiveStream := if memoryMap then .mapped f.statSize 0 else .file 0

/-- The end of the last page that has bytes of the file in it, for `mmap` at `file_mapped_memory_block.cc` 68. -/
def pageEnd (page : Nat) (f : LiveFile) : Nat := (f.bytes.length + page - 1) / page * page

/-- A byte of the mapping made at `file_mapped_memory_block.cc` 68. -/
def mappedByte (page : Nat) (f : LiveFile) (i : Nat) : Res UInt8 :=
  match f.bytes[i]? with
  | some b => .ok b
  | none => if i < pageEnd page f then .ok 0 else .ub "SIGBUS"

/-- `std::copy`, `memory_input_stream.cc` 39, of `n` bytes at `i`. -/
def mappedCopy (page : Nat) (f : LiveFile) : (i n : Nat) → Res Bytes
  | _, 0 => .ok []
  | i, n + 1 =>
    match mappedByte page f i with
    | .err e => .err e
    | .ub w => .ub w
    | .ok b =>
      match mappedCopy page f (i + 1) n with
      | .err e => .err e
      | .ub w => .ub w
      | .ok bs => .ok (b :: bs)

/-- `read` into a destination of `n` bytes, while the file is `f`: `file_input_stream.cc` 53-66, where `::read` delivers at most `short + 1` bytes;
`memory_input_stream.cc` 27-42 and 89-92. -/
def LiveStream.read (page : Nat) (f : LiveFile) (short n : Nat) : LiveStream → Res Bytes × LiveStream
  | .file pos =>
    let got := (f.bytes.drop pos).take (min n (short + 1))
    (.ok got, .file (pos + got.length))
  | .mapped size pos =>
    match mappedCopy page f pos (min n (size - pos)) with
    | .ok got => (.ok got, .mapped size (pos + min n (size - pos)))
    | .err e => (.err e, .mapped size pos)
    | .ub w => (.ub w, .mapped size pos)

/-- Reads (`file_input_stream.cc` 53-66, `memory_input_stream.cc` 27-42), each with the file as it is then, the bytes that the system delivers at most, less one, and
the size of the destination. -/
def liveReads (page : Nat) : LiveStream → List (LiveFile × Nat × Nat) → List (Res Bytes)
  | _, [] => []
  | s, (f, short, n) :: rs => (s.read page f short n).1 :: liveReads page (s.read page f short n).2 rs

/-- The loops of `Instance::read_stream`, `instance.cc` 79-125, with the file at the `k`-th read (and the bytes delivered at most, less one): `size` is that of the block,
`filled` are the bytes stored.  A full block is made twice as large, 88-92. -/
def loadLive (page : Nat) (fs : Nat → LiveFile × Nat) : (fuel k : Nat) → LiveStream → (size : Nat) → (filled : Bytes) → Res Bytes
  | 0, _, _, _, _ => .err .diverges
  | fuel + 1, k, s, size, filled =>
    if filled.length = size then loadLive page fs fuel k s (size * 2) filled
    else
      match s.read page (fs k).1 (fs k).2 (size - filled.length) with
      | (.ok [], _) => .ok filled
      | (.ok (b :: bs), s') => loadLive page fs fuel (k + 1) s' size (filled ++ b :: bs)
      | (.err e, _) => .err e
      | (.ub w, _) => .ub w

/-- `Instance::load_bits_from_store`, `instance.cc` 37-77, for a local file without compression that is `f` when it is opened and asked for its size.  What is mapped is
not copied, but looked at later, when the file is `(fs 0).1`. -/
def loadLiveFile (page fuel : Nat) (memoryMap : Bool) (f : LiveFile) (fs : Nat → LiveFile × Nat) : Res Bytes :=
  match openLive memoryMap f with
  | .mapped size pos => ((LiveStream.mapped size pos).read page (fs 0).1 (fs 0).2 size).1
  | .file pos => loadLive page fs fuel 0 (.file pos) f.statSize []

end Mlio
