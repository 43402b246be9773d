import Verif.Model.ChunkHeap

/-!
# Writing into records

Python exports records (`src/mlio-py/mlio/core/record_reader.cc` 69-77) and memory slices (`memory.cc` 26-35) as
*writable* buffers over the payload itself ("TODO: Make read-only").  `memoryview(record)[j] = v` therefore writes into
the block that the payload is a slice of.
-/

namespace Mlio

/-- The blocks after the byte `v` has been written at position `j` of the slice. -/
def pokeBlocks (blocks : List HBlock) (s : HSlice) (j : Nat) (v : UInt8) : List HBlock :=
  match blocks[s.block]? with
  | some b => if b.gen = s.gen then blocks.set s.block ⟨b.gen, b.data.set (s.off + j) v⟩ else blocks
  | none => blocks

/-- `memoryview(record)[j] = v` for the `i`-th record, `record_reader.cc` 69-77: the buffer has the address and the size
of the payload; Python refuses an index that is not below the size.  (The bytes kept beside each record, which the
program does not have, are those that it shows after the write.) -/
def Heap.poke (h : Heap) (i j : Nat) (v : UInt8) : Heap :=
  match h.held[i]? with
  | none => h
  | some r =>
    if j < r.1.len then
      { h with
        blocks := pokeBlocks h.blocks r.1 j v
        held := h.held.map fun q => (q.1, (deref (pokeBlocks h.blocks r.1 j v) q.1).getD q.2) }
    else h

/-- What a Python program does with a record reader and its records. -/
inductive PokeOp where
  | op (o : HeapOp)
  /-- write `v` at position `j` of the `i`-th record -/
  | poke (i j : Nat) (v : UInt8)
  deriving DecidableEq, Repr

/-- The outcomes of the operations that are not writes, and the state after all. -/
def Heap.pokeOps (junk : Nat → UInt8) (F : Filler) (dec : Bytes → Bool → Dec Record) (off : Bytes → Bool → Nat) :
    Heap → F.σ → List PokeOp → List (Res (Option Record)) × Heap × F.σ
  | h, f, [] => ([], h, f)
  | h, f, .op o :: os =>
    let (r, h', f') := h.op junk F dec off f o
    let (rs, h'', f'') := Heap.pokeOps junk F dec off h' f' os
    (r :: rs, h'', f'')
  | h, f, .poke i j v :: os => Heap.pokeOps junk F dec off (h.poke i j v) f os

/-! ## Records of in-memory stores and mapped files -/

/-- A reader over an `In_memory_chunk_reader` (`detail/in_memory_chunk_reader.cc` 24-27): the one chunk is the memory of
the store itself, from `Memory_input_stream::read(size)`, `streams/memory_input_stream.cc` 44-57.  `mem` is that memory,
`pending` tells whether the chunk has not been handed out, and the chunk that is being decoded starts at `start`. -/
structure OwnReader where
  mem : Bytes
  pending : Bool
  start : Nat
  deriving DecidableEq, Repr

/-- `make_chunk_reader`, `detail/chunk_reader.cc` 30-47: nothing has been handed out. -/
def OwnReader.open (mem : Bytes) : OwnReader := ⟨mem, !mem.isEmpty, mem.length⟩

/-- `Stream_record_reader::read_record_core`, `stream_record_reader.cc` 45-62: the record and where its payload is in
the memory of the store. -/
def OwnReader.readCore (dec : Bytes → Bool → Dec Record) (off : Bytes → Bool → Nat) :
    (fuel : Nat) → OwnReader → Res (Option (Record × Nat)) × OwnReader
  | 0, z => (.err .diverges, z)
  | fuel + 1, z =>
    match dec (z.mem.drop z.start) z.pending with
    | .got r rest =>
      (.ok (some (r, z.start + off (z.mem.drop z.start) z.pending)), { z with start := z.mem.length - rest.length })
    | .fail e rest => (.err e, { z with start := z.mem.length - rest.length })
    | .ub w => (.ub w, z)
    | .more _ _ =>
      if z.pending then OwnReader.readCore dec off fuel { z with pending := false, start := 0 }
      else (.ok none, { z with start := z.mem.length })

/-- One call; two iterations are enough. -/
def OwnReader.read (dec : Bytes → Bool → Dec Record) (off : Bytes → Bool → Nat) (z : OwnReader) :
    Res (Option (Record × Nat)) × OwnReader := z.readCore dec off 3

/-- The outcomes of `n` calls. -/
def OwnReader.readN (dec : Bytes → Bool → Dec Record) (off : Bytes → Bool → Nat) :
    (n : Nat) → OwnReader → List (Res (Option Record)) × OwnReader
  | 0, z => ([], z)
  | n + 1, z =>
    let (o, z') := z.read dec off
    let (os, z'') := OwnReader.readN dec off n z'
    ((match o with
      | .ok p => .ok (p.map Prod.fst)
      | .err e => .err e
      | .ub w => .ub w) :: os, z'')

/-- Where the memory of a store is from. -/
inductive OwnMemory where
  /-- the object given to `InMemoryStore`, `py_memory_block.cc`; also when it is an immutable `bytes` object, as the
  buffer is asked for without `PyBUF_WRITABLE` -/
  | object
  /-- `File_mapped_memory_block`, `file_mapped_memory_block.cc` 51-76: `PROT_READ` -/
  | mapped
  deriving DecidableEq, Repr

/-- `memoryview(record)[j] = v` for the record with the payload at `place`. -/
def OwnReader.poke (kind : OwnMemory) (z : OwnReader) (place j : Nat) (v : UInt8) : Res OwnReader :=
  match kind with
  | .object => .ok { z with mem := z.mem.set (place + j) v }
  | .mapped => .ub "write to read-only pages"

end Mlio
