import Verif.Model.RecordIO

/-!
# Chunk readers and the stream record reader

`src/mlio/record_readers/detail/default_chunk_reader.{h,cc}`,
`src/mlio/record_readers/detail/in_memory_chunk_reader.{h,cc}`,
`src/mlio/record_readers/detail/chunk_reader.cc`, `src/mlio/record_readers/stream_record_reader.cc`.
-/

namespace Mlio

/-- An `Input_stream` (`include/mlio/streams/input_stream.h`) seen by `read`: the bytes not read
yet, and a schedule that decides how short each read is.  The contract assumed of a stream is
that `read(dst)` with a non-empty `dst` returns at least one byte unless the end is reached;
apart from that it may return as few bytes as it likes. -/
structure Stream where
  data : Bytes
  sched : List Nat
  deriving Repr

/-- One `stream_->read(span of n bytes)`: bytes delivered and new state. -/
def Stream.read (s : Stream) (n : Nat) : Bytes × Stream :=
  match s.sched with
  | [] => (s.data.take n, ⟨s.data.drop n, []⟩)
  | k :: ks =>
    let m := min n (max k 1)
    (s.data.take m, ⟨s.data.drop m, ks⟩)

/-- The fill loop of `Default_chunk_reader::read_chunk`, `default_chunk_reader.cc` 74-84.
`remaining` is the size of the part of the chunk that is still to be filled.
Returns the bytes stored, the stream and `eof_`.
The fuel bounds the number of `read` calls; `remaining` is enough, and running
out of fuel returns `none`. -/
def fillLoop : (fuel : Nat) → Stream → (remaining : Nat) → Option (Bytes × Stream × Bool)
  | 0, s, remaining => if remaining = 0 then some ([], s, false) else none
  | fuel + 1, s, remaining =>
    if remaining = 0 then some ([], s, false)
    else
      let (got, s') := s.read remaining
      if got.length = 0 then some ([], s', true)
      else
        match fillLoop fuel s' (remaining - got.length) with
        | none => none
        | some (more, s'', e) => some (got ++ more, s'', e)

/-- State of a `Default_chunk_reader`, `default_chunk_reader.h` 53-56.  The held block `chunk_` is
represented by its size; its contents are the `chunk_` slice of the stream record reader. -/
structure ChunkReader where
  stream : Stream
  next : Nat
  held : Option Nat
  eof : Bool
  deriving Repr

/-- The size of the chunk to fill, `default_chunk_reader.cc` 37-59: it doubles when the whole chunk is
leftover and already has the next size.
Simplification: `next_chunk_size_ <<= 1` (line 43) is doubling without wrap-around (the
allocation of such a block would fail first). -/
def ChunkReader.nextSize (c : ChunkReader) (leftover : Bytes) : Nat :=
  match c.held with
  | some sz => if sz = leftover.length ∧ sz = c.next then c.next * 2 else c.next
  | none => c.next

/-- `Default_chunk_reader::read_chunk(leftover)`, `default_chunk_reader.cc` 29-95, at the level of
values (for which block the bytes are stored in, see `Verif/Model/ChunkHeap.lean`).
In all branches the block filled has `next_chunk_size_` bytes, starts with `leftover` and is
filled from the stream. -/
def ChunkReader.readChunk (c : ChunkReader) (leftover : Bytes) : Res (Bytes × ChunkReader) :=
  if c.eof then .ok ([], c)
  else
    let next := c.nextSize leftover
    if leftover.length > next then .ub "subspan beyond the chunk"
    else
      match fillLoop (next - leftover.length) c.stream (next - leftover.length) with
      | none => .err .diverges
      | some (got, s', e) =>
        .ok (leftover ++ got,
          { stream := s', next := next, held := if e then none else some next, eof := e })

/-- `Default_chunk_reader::set_chunk_size_hint`, `default_chunk_reader.cc` 97-102.  Fuel `value` is enough
when the current size is positive. -/
def growHint : (fuel : Nat) → (next value : Nat) → Nat
  | 0, next, _ => next
  | fuel + 1, next, value => if value > next then growHint fuel (next * 2) value else next

/-- A stream record reader: the chunk reader and the slice `chunk_` with the bytes not decoded
yet (`stream_record_reader.h` 75-76). -/
structure Reader where
  cr : ChunkReader
  chunk : Bytes
  deriving Repr

/-- `Stream_record_reader::read_record_core`, `stream_record_reader.cc` 45-62, for the decoder `dec`. -/
def Reader.readCore {ρ : Type} (dec : Bytes → Bool → Dec ρ) :
    (fuel : Nat) → Reader → Res (Option ρ) × Reader
  | 0, st => (.err .diverges, st)
  | fuel + 1, st =>
    match dec st.chunk (!st.cr.eof) with
    | .got r rest => (.ok (some r), { st with chunk := rest })
    | .fail e rest => (.err e, { st with chunk := rest })
    | .ub w => (.ub w, st)
    | .more rest hint =>
      let cr := { st.cr with next := growHint hint st.cr.next hint }
      match cr.readChunk rest with
      | .err e => (.err e, st)
      | .ub w => (.ub w, st)
      | .ok (chunk, cr') =>
        if chunk.isEmpty then (.ok none, ⟨cr', chunk⟩)
        else Reader.readCore dec fuel ⟨cr', chunk⟩

/-- One call of `read_record_core`.  The loop gets fuel for one iteration per unread byte plus two;
the theorems show that it never runs out. -/
def Reader.read {ρ : Type} (dec : Bytes → Bool → Dec ρ) (st : Reader) : Res (Option ρ) × Reader :=
  Reader.readCore dec (st.cr.stream.data.length + 2) st

/-- The outcomes of `n` successive calls. -/
def Reader.readN {ρ : Type} (dec : Bytes → Bool → Dec ρ) : (n : Nat) → Reader → List (Res (Option ρ))
  | 0, _ => []
  | n + 1, st =>
    let (o, st') := st.read dec
    o :: Reader.readN dec n st'

/-- A reader on a fresh stream with initial chunk size `size`
(`default_chunk_reader.h` 53: 32 MiB; a parameter here). -/
def Reader.init (size : Nat) (data : Bytes) (sched : List Nat) : Reader :=
  ⟨{ stream := ⟨data, sched⟩, next := size, held := none, eof := false }, []⟩

/-- A reader over an `In_memory_chunk_reader` (`in_memory_chunk_reader.{h,cc}`; chosen by
`make_chunk_reader`, `chunk_reader.cc` 30-47, for zero-copy streams): `pending` is the whole
content until it is handed out by `read_chunk`, and `eof()` is `pending.empty()`. -/
structure MemReader where
  pending : Bytes
  chunk : Bytes
  deriving Repr

/-- `read_record_core` over an in-memory chunk reader. -/
def MemReader.readCore {ρ : Type} (dec : Bytes → Bool → Dec ρ) :
    (fuel : Nat) → MemReader → Res (Option ρ) × MemReader
  | 0, st => (.err .diverges, st)
  | fuel + 1, st =>
    match dec st.chunk (!st.pending.isEmpty) with
    | .got r rest => (.ok (some r), { st with chunk := rest })
    | .fail e rest => (.err e, { st with chunk := rest })
    | .ub w => (.ub w, st)
    | .more _ _ =>
      -- `std::exchange(chunk_, {})`: the leftover argument is ignored
      if st.pending.isEmpty then (.ok none, ⟨[], st.pending⟩)
      else MemReader.readCore dec fuel ⟨[], st.pending⟩

/-- One call (two iterations are enough). -/
def MemReader.read {ρ : Type} (dec : Bytes → Bool → Dec ρ) (st : MemReader) :
    Res (Option ρ) × MemReader :=
  MemReader.readCore dec 3 st

/-- The outcomes of `n` successive calls. -/
def MemReader.readN {ρ : Type} (dec : Bytes → Bool → Dec ρ) :
    (n : Nat) → MemReader → List (Res (Option ρ))
  | 0, _ => []
  | n + 1, st =>
    let (o, st') := st.read dec
    o :: MemReader.readN dec n st'

end Mlio
