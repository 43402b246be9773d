import Verif.Model.Memory

/-!
# The memory behind chunks and records

`Default_chunk_reader` (`src/mlio/record_readers/detail/default_chunk_reader.cc`) and `Stream_record_reader`
(`src/mlio/record_readers/stream_record_reader.cc`) once more, this time with the memory blocks that chunks and
payloads point into.  A payload is not a copy: it is a slice of the chunk it was found in, and the chunk reader writes
into a chunk again once it believes that nobody else uses it.

`use_count()` is taken to be the number of existing pointers to the block (that reference counts are exact is C57); a
call happens at one moment relative to the copying and releasing of records by other threads.  Blocks are not
deallocated here; a block whose last pointer is gone is simply never looked at again.
-/

namespace Mlio

/-- A memory block: its contents, and a number that changes whenever resizing moves the contents (pointers from before
are then dangling). -/
structure HBlock where
  gen : Nat
  data : Bytes
  deriving DecidableEq, Repr

/-- A `Memory_slice`, `memory_slice.h` 184-186: the block (by number), and the two pointers as an offset from the
start of the contents and a length. -/
structure HSlice where
  block : Nat
  gen : Nat
  off : Nat
  len : Nat
  deriving DecidableEq, Repr

/-- The bytes that a slice shows now; `none` if its pointers are dangling. -/
def deref (blocks : List HBlock) (s : HSlice) : Option Bytes :=
  match blocks[s.block]? with
  | none => none
  | some b => if b.gen = s.gen ∧ s.off + s.len ≤ b.data.length then some ((b.data.drop s.off).take s.len) else none

/-- `default_chunk_reader.h` 53-56 and `stream_record_reader.h` 75-76, all blocks, and the payloads of the records that
exist (each together with the bytes that it showed when it was read, which the program does not have). -/
structure Heap where
  blocks : List HBlock
  /-- `Default_chunk_reader::chunk_` -/
  chunk : Option Nat
  next : Nat
  eof : Bool
  /-- `Stream_record_reader::chunk_` -/
  slice : Option HSlice
  held : List (HSlice × Bytes)
  deriving DecidableEq, Repr

/-- After construction, with the initial chunk size. -/
def Heap.init (size : Nat) : Heap := ⟨[], none, size, false, none, []⟩

/-- `use_count()` of the block: one for the chunk reader, one for the stream record reader, one for each record. -/
def Heap.useCount (h : Heap) (b : Nat) : Nat :=
  (if h.chunk = some b then 1 else 0) +
  (match h.slice with
    | some s => if s.block = b then 1 else 0
    | none => 0) +
  h.held.countP (fun r => r.1.block == b)

/-- Write `w` at the start of `old`. -/
def overwrite (w old : Bytes) : Bytes := w ++ old.drop w.length

/-- How the fill loop (`default_chunk_reader.cc` 74-84) ended. -/
inductive FillEnd where
  | full
  | eof
  | threw (e : Err)
  deriving DecidableEq, Repr

/-- A stream as the fill loop sees it: given how much fits, the bytes stored and how the loop ended. -/
structure Filler where
  σ : Type
  fill : σ → Nat → Bytes × FillEnd × σ

/-- `default_chunk_reader.cc` 35-72: the blocks, the block to fill and the new chunk size.  `leftover` are the bytes
shown by the slice of the stream record reader. -/
def Heap.prepare (junk : Nat → UInt8) (h : Heap) (leftover : Bytes) : List HBlock × Nat × Nat :=
  let fresh := (h.blocks ++ [⟨0, overwrite leftover (reallocBytes junk [] h.next)⟩], h.blocks.length, h.next)
  match h.chunk with
  | none => fresh
  | some b =>
    match h.blocks[b]? with
    | none => fresh
    | some blk =>
      if blk.data.length = leftover.length then
        let next := if blk.data.length = h.next then h.next * 2 else h.next
        if blk.data.length ≠ next then
          (h.blocks.set b ⟨blk.gen + 1, reallocBytes junk blk.data next⟩, b, next)
        else (h.blocks, b, next)
      else if h.useCount b ≤ 2 then
        let data := overwrite leftover blk.data
        if blk.data.length ≠ h.next then (h.blocks.set b ⟨blk.gen + 1, reallocBytes junk data h.next⟩, b, h.next)
        else (h.blocks.set b ⟨blk.gen, data⟩, b, h.next)
      else fresh

/-- `default_chunk_reader.cc` 74-94: what has been stored behind the `n` bytes left over, and the slice returned.  When
the stream throws the slice of the stream record reader stays as it was. -/
def Heap.filled {σ : Type} (h : Heap) (blocks : List HBlock) (b next : Nat) (blk : HBlock) (n : Nat) :
    Bytes × FillEnd × σ → Res Unit × Heap × σ
  | (got, e, f') =>
    let blocks' := blocks.set b ⟨blk.gen, blk.data.take n ++ overwrite got (blk.data.drop n)⟩
    let s : HSlice := ⟨b, blk.gen, 0, n + got.length⟩
    match e with
    | .threw e => (.err e, ⟨blocks', some b, next, h.eof, h.slice, h.held⟩, f')
    | .eof => (.ok (), ⟨blocks', none, next, true, some s, h.held⟩, f')
    | .full => (.ok (), ⟨blocks', some b, next, h.eof, some s, h.held⟩, f')

/-- `Default_chunk_reader::read_chunk`, `default_chunk_reader.cc` 29-95, and the assignment of its result to `chunk_`
(`stream_record_reader.cc` 55). -/
def Heap.readChunk (junk : Nat → UInt8) (F : Filler) (h : Heap) (leftover : Bytes) (f : F.σ) :
    Res Unit × Heap × F.σ :=
  if h.eof then (.ok (), { h with slice := none }, f)
  else
    match h.prepare junk leftover with
    | (blocks, b, next) =>
      match blocks[b]? with
      | none => (.ub "no such block", h, f)
      | some blk =>
        if leftover.length > blk.data.length then (.ub "subspan beyond the chunk", h, f)
        else
          h.filled blocks b next blk leftover.length (F.fill f (blk.data.length - leftover.length))

/-- The slice after its first `n` bytes have been consumed. -/
def HSlice.drop (s : HSlice) (n : Nat) : HSlice := { s with off := s.off + n, len := s.len - n }

/-- The bytes in the slice of the stream record reader. -/
def Heap.view (h : Heap) : Option Bytes :=
  match h.slice with
  | none => some []
  | some s => deref h.blocks s

/-- The slice with `rest` bytes left. -/
def Heap.advance (h : Heap) (rest : Nat) : Heap :=
  { h with slice := h.slice.map (fun s => s.drop (s.len - rest)) }

/-- The slice with `rest` bytes left, and the chunk size after `set_chunk_size_hint`, `default_chunk_reader.cc` 97-102. -/
def Heap.hinted (h : Heap) (rest hint : Nat) : Heap :=
  ⟨h.blocks, h.chunk, growHint hint h.next hint, h.eof, (h.advance rest).slice, h.held⟩

/-- `Stream_record_reader::read_record_core`, `stream_record_reader.cc` 45-62.  `dec` is the decoder and `off` the
place of the payload in the chunk it was given.  The record read is added to the existing ones. -/
def Heap.readCore (junk : Nat → UInt8) (F : Filler) (dec : Bytes → Bool → Dec Record) (off : Bytes → Bool → Nat) :
    (fuel : Nat) → Heap → F.σ → Res (Option Record) × Heap × F.σ
  | 0, h, f => (.err .diverges, h, f)
  | fuel + 1, h, f =>
    match h.view with
    | none => (.ub "dangling chunk", h, f)
    | some x =>
      match dec x (!h.eof) with
      | .got r rest =>
        match h.slice with
        | none => (.ub "record from nothing", h, f)
        | some s =>
          let payload : HSlice := ⟨s.block, s.gen, s.off + off x (!h.eof), r.payload.length⟩
          (.ok (some r), { h.advance rest.length with held := (payload, r.payload) :: h.held }, f)
      | .fail e rest => (.err e, h.advance rest.length, f)
      | .ub w => (.ub w, h, f)
      | .more rest hint =>
        match (h.hinted rest.length hint).readChunk junk F rest f with
        | (.err e, h2, f') => (.err e, h2, f')
        | (.ub w, h2, f') => (.ub w, h2, f')
        | (.ok (), h2, f') =>
          match h2.view with
          | none => (.ub "dangling chunk", h2, f')
          | some y => if y.isEmpty then (.ok none, h2, f') else Heap.readCore junk F dec off fuel h2 f'

/-- What a program does with a record reader and its records. -/
inductive HeapOp where
  /-- read a record and keep it; the number is the fuel of the loop -/
  | read (fuel : Nat)
  /-- make a copy of the `i`-th record -/
  | copy (i : Nat)
  /-- let the `i`-th record go -/
  | release (i : Nat)
  deriving DecidableEq, Repr

/-- One operation. -/
def Heap.op (junk : Nat → UInt8) (F : Filler) (dec : Bytes → Bool → Dec Record) (off : Bytes → Bool → Nat)
    (h : Heap) (f : F.σ) : HeapOp → Res (Option Record) × Heap × F.σ
  | .read fuel => h.readCore junk F dec off fuel f
  | .copy i =>
    (.ok none, match h.held[i]? with
      | some r => { h with held := r :: h.held }
      | none => h, f)
  | .release i => (.ok none, { h with held := h.held.eraseIdx i }, f)

/-- The outcomes of a sequence of operations and the state after it. -/
def Heap.ops (junk : Nat → UInt8) (F : Filler) (dec : Bytes → Bool → Dec Record) (off : Bytes → Bool → Nat) :
    Heap → F.σ → List HeapOp → List (Res (Option Record)) × Heap × F.σ
  | h, f, [] => ([], h, f)
  | h, f, o :: os =>
    let (r, h', f') := h.op junk F dec off f o
    let (rs, h'', f'') := Heap.ops junk F dec off h' f' os
    (r :: rs, h'', f'')

/-- The fill loop over a stream as in `Verif/Model/StreamReader.lean`, which never throws. -/
def streamFiller : Filler where
  σ := Stream
  fill s n :=
    match fillLoop n s n with
    | none => ([], .threw .diverges, s)
    | some (got, s', e) => (got, if e then .eof else .full, s')

end Mlio
