import Verif.Model.ChunkHeap
import Verif.Model.Poke
import Verif.Model.Parquet

/-!
# The addresses that are read as 32-bit integers

`decode_recordio_header` (`record_readers/detail/recordio_header.cc` 26-45) and `Parquet_record_reader`
(`record_readers/parquet_record_reader.cc` 92-136, 155-159) read the chunk through pointers to `std::uint32_t`.  Such a read has
undefined behaviour unless the address is a multiple of 4.  The other models do not have addresses; here are the positions, relative to the start
of the chunk, at which the decoders read integers of 4 bytes, and the chunks that the decoders are called with.
-/

namespace Mlio

/-- The positions read in `decode_recordio_header`, `recordio_header.cc` 28-42: `ints[0]` and, if that is the magic number, `ints[1]`. -/
def recordioLoads (chunk : Bytes) : List Nat :=
  match decodeHeader chunk with
  | .ok none => []
  | .ok (some _) => [0, 4]
  | _ => [0]

/-- The positions read in the scanning loop, `parquet_record_reader.cc` 73-83: at every position the magic number (94), and if it is there the size of the
metadata (104) before it. -/
def parquetScanLoads (b : Bytes) : (fuel : Nat) → (pos : Nat) → List Nat
  | 0, _ => []
  | fuel + 1, pos =>
    if (pos : Int) ≤ (b.length : Int) - 4 then
      match parquetIsMagic b pos with
      | .ok true =>
        match parquetIsFooter b pos with
        | .ok true => [pos, pos - 4]
        | _ => pos :: (pos - 4) :: parquetScanLoads b fuel (pos + 1)
      | _ => pos :: parquetScanLoads b fuel (pos + 1)
    else []

/-- The positions read in `Parquet_record_reader::decode_record`, `parquet_record_reader.cc` 27-90. -/
def parquetLoads (chunk : Bytes) : List Nat :=
  if chunk.length < 4 then []
  else
    match parquetIsMagic chunk 0 with
    | .ok true => if chunk.length < 2 * 4 + 4 then [0] else 0 :: parquetScanLoads chunk chunk.length (4 + 4)
    | _ => [0]

/-- The chunks that `decode_record` is called with in `Stream_record_reader::read_record_core`, `stream_record_reader.cc` 45-62, as in
`Heap.readCore`. -/
def Heap.decoded (junk : Nat → UInt8) (F : Filler) (dec : Bytes → Bool → Dec Record) :
    (fuel : Nat) → Heap → F.σ → List (HSlice × Bytes)
  | 0, _, _ => []
  | fuel + 1, h, f =>
    match h.view with
    | none => []
    | some x =>
      h.slice.toList.map (fun s => (s, x)) ++
      match dec x (!h.eof) with
      | .more rest hint =>
        match (h.hinted rest.length hint).readChunk junk F rest f with
        | (.ok (), h2, f') =>
          match h2.view with
          | none => []
          | some y => if y.isEmpty then [] else Heap.decoded junk F dec fuel h2 f'
        | _ => []
      | _ => []

/-- The chunks decoded in a sequence of operations. -/
def Heap.opsDecoded (junk : Nat → UInt8) (F : Filler) (dec : Bytes → Bool → Dec Record) (off : Bytes → Bool → Nat) :
    Heap → F.σ → List HeapOp → List (HSlice × Bytes)
  | _, _, [] => []
  | h, f, o :: os =>
    (match o with
    | .read fuel => h.decoded junk F dec fuel f
    | _ => []) ++
    match h.op junk F dec off f o with
    | (_, h', f') => Heap.opsDecoded junk F dec off h' f' os

/-- The same for the memory of an in-memory store or a mapped file (`OwnReader`): where the chunk starts, and the chunk. -/
def OwnReader.decoded (dec : Bytes → Bool → Dec Record) : (fuel : Nat) → OwnReader → List (Nat × Bytes)
  | 0, _ => []
  | fuel + 1, z =>
    (z.start, z.mem.drop z.start) ::
    match dec (z.mem.drop z.start) z.pending with
    | .more _ _ => if z.pending then OwnReader.decoded dec fuel { z with pending := false, start := 0 } else []
    | _ => []

/-- The chunks decoded in `n` calls. -/
def OwnReader.decodedN (dec : Bytes → Bool → Dec Record) (off : Bytes → Bool → Nat) : Nat → OwnReader → List (Nat × Bytes)
  | 0, _ => []
  | n + 1, z => z.decoded dec 3 ++ OwnReader.decodedN dec off n (z.read dec off).2

end Mlio
