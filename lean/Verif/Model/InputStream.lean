import Verif.Model.Utf8Stream

/-!
# Record readers over any input stream

`src/mlio/record_readers/detail/default_chunk_reader.cc`, `src/mlio/record_readers/stream_record_reader.cc` again, this
time not over the abstract `Stream` of `Verif/Model/StreamReader.lean`, but over any class derived from
`Input_stream`, which may also throw exceptions.
-/

namespace Mlio

/-- A class derived from `Input_stream`, `include/mlio/streams/input_stream.h` 33-63: its state, and
`read(destination)` for a destination of the given size. -/
structure InStream where
  σ : Type
  read : σ → Nat → Res Bytes × σ

/-- Successive reads. -/
def InStream.reads (m : InStream) : m.σ → List Nat → List (Res Bytes)
  | _, [] => []
  | s, n :: ns => (m.read s n).1 :: m.reads (m.read s n).2 ns

/-- The abstract stream of `Verif/Model/StreamReader.lean` as a class. -/
abbrev streamIn : InStream where
  σ := Stream
  read s n := (.ok (s.read n).1, (s.read n).2)

/-- The fill loop of `Default_chunk_reader::read_chunk`, `default_chunk_reader.cc` 74-84: the bytes stored and
`eof_`.  Fuel as in `fillLoop`. -/
def gFill (m : InStream) : (fuel : Nat) → m.σ → (remaining : Nat) → Res (Bytes × Bool) × m.σ
  | 0, s, remaining => if remaining = 0 then (.ok ([], false), s) else (.err .diverges, s)
  | fuel + 1, s, remaining =>
    if remaining = 0 then (.ok ([], false), s)
    else
      match m.read s remaining with
      | (.err e, s') => (.err e, s')
      | (.ub w, s') => (.ub w, s')
      | (.ok got, s') =>
        if got.length = 0 then (.ok ([], true), s')
        else
          match gFill m fuel s' (remaining - got.length) with
          | (.ok (more, e), s'') => (.ok (got ++ more, e), s'')
          | (.err e, s'') => (.err e, s'')
          | (.ub w, s'') => (.ub w, s'')

/-- A stream record reader over a `Default_chunk_reader`: `stream_`, `next_chunk_size_`, the size of `chunk_` of the chunk
reader, `eof_` (`default_chunk_reader.h` 53-56), and `chunk_` of the record reader (`stream_record_reader.h` 76). -/
structure GReader (m : InStream) where
  stream : m.σ
  next : Nat
  held : Option Nat
  eof : Bool
  chunk : Bytes

/-- The size of the chunk to fill, `default_chunk_reader.cc` 37-59, see `ChunkReader.nextSize`. -/
def GReader.nextSize {m : InStream} (g : GReader m) (leftover : Bytes) : Nat :=
  match g.held with
  | some sz => if sz = leftover.length ∧ sz = g.next then g.next * 2 else g.next
  | none => g.next

/-- `Default_chunk_reader::read_chunk(leftover)`, `default_chunk_reader.cc` 29-95, at the level of values; the new chunk and
the reader without it.  (What an exception of the stream leaves behind in the blocks is the subject of
`Verif/Model/ChunkHeap.lean`; here the reader keeps its chunk.) -/
def GReader.readChunk {m : InStream} (g : GReader m) (leftover : Bytes) : Res Bytes × GReader m :=
  if g.eof then (.ok [], g)
  else if leftover.length > g.nextSize leftover then (.ub "subspan beyond the chunk", g)
  else
    match gFill m (g.nextSize leftover - leftover.length) g.stream (g.nextSize leftover - leftover.length) with
    | (.err e, s') => (.err e, { g with stream := s' })
    | (.ub w, s') => (.ub w, { g with stream := s' })
    | (.ok (got, e), s') =>
      (.ok (leftover ++ got),
        { g with stream := s', next := g.nextSize leftover, held := if e then none else some (g.nextSize leftover), eof := e })

/-- `Stream_record_reader::read_record_core`, `stream_record_reader.cc` 45-62, for the decoder `dec`.  The fuel bounds the
number of turns of the loop. -/
def GReader.read {m : InStream} {ρ : Type} (dec : Bytes → Bool → Dec ρ) :
    (fuel : Nat) → GReader m → Res (Option ρ) × GReader m
  | 0, g => (.err .diverges, g)
  | fuel + 1, g =>
    match dec g.chunk (!g.eof) with
    | .got r rest => (.ok (some r), { g with chunk := rest })
    | .fail e rest => (.err e, { g with chunk := rest })
    | .ub w => (.ub w, g)
    | .more rest hint =>
      match ({ g with next := growHint hint g.next hint }).readChunk rest with
      | (.err e, g') => (.err e, g')
      | (.ub w, g') => (.ub w, g')
      | (.ok chunk, g') =>
        if chunk.isEmpty then (.ok none, { g' with chunk := chunk })
        else GReader.read dec fuel { g' with chunk := chunk }

/-- A reader on a stream, with the initial size of chunks. -/
def GReader.init {m : InStream} (size : Nat) (s : m.σ) : GReader m := ⟨s, size, none, false, []⟩

/-- The outcomes of `n` successive calls. -/
def GReader.readN {m : InStream} {ρ : Type} (dec : Bytes → Bool → Dec ρ) (fuel : Nat) :
    (n : Nat) → GReader m → List (Res (Option ρ))
  | 0, _ => []
  | n + 1, g => (g.read dec fuel).1 :: GReader.readN dec fuel n (g.read dec fuel).2

end Mlio
