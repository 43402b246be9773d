import Verif.Model.Slice

/-!
# RecordIO framing

`src/mlio/record_readers/detail/recordio_header.{h,cc}`, `src/mlio/record_readers/detail/util.h`,
`src/mlio/record_readers/recordio_record_reader.cc`.
-/

namespace Mlio

/-- Outcome of one `decode_record(chunk, ignore_leftover)` call
(`include/mlio/record_readers/stream_record_reader.h` 64-73).  Every outcome carries the
value of `chunk` after the call, because `chunk` is passed by reference.

* `got r rest`  – a record was decoded;
* `more rest hint` – `std::nullopt`; `hint` is the largest value passed to
  `set_record_size_hint` during the call (0 if none);
* `fail e rest` – exception `e`;
* `ub w` – undefined behaviour. -/
inductive Dec (ρ : Type) where
  | got (r : ρ) (rest : Bytes)
  | more (rest : Bytes) (hint : Nat)
  | fail (e : Err) (rest : Bytes)
  | ub (why : String)
  deriving Repr, DecidableEq

/-- A record: kind and payload (`include/mlio/record_readers/record.h`).  The kind is kept as the number
0..7 found in the header; 0 is complete, 1 begin, 2 middle, 3 end. -/
structure Record where
  kind : Nat
  payload : Bytes
  deriving DecidableEq, Repr

/-- A `std::uint32_t` read from memory on a little-endian host (`as_span<const std::uint32_t>`,
`recordio_header.cc` 28).  Simplification: the bytes of the two words need not be 4-byte
aligned in memory; the model ignores alignment. -/
def le32 (b0 b1 b2 b3 : UInt8) : Nat :=
  b0.toNat + 2 ^ 8 * b1.toNat + 2 ^ 16 * b2.toNat + 2 ^ 24 * b3.toNat

/-- `recordio_header.cc` 35-36: the magic number. -/
def recordioMagic : Nat := 0xced7230a

/-- `decode_recordio_header`, `recordio_header.cc` 26-45, on a little-endian host: `ok none` if there are less than two
words, exception if the first word is not the magic number, else the second word. -/
def decodeHeader (b : Bytes) : Res (Option Nat) :=
  match b with
  | b0 :: b1 :: b2 :: b3 :: c0 :: c1 :: c2 :: c3 :: _ =>
    if le32 b0 b1 b2 b3 ≠ recordioMagic then .err .corruptHeader
    else .ok (some (le32 c0 c1 c2 c3))
  | _ => .ok none

/-- `Recordio_header::record_kind`, `recordio_header.h` 36-39. -/
def headerKind (data : Nat) : Nat := (data >>> 29) &&& 7

/-- `Recordio_header::payload_size`, `recordio_header.h` 41-44. -/
def headerPayloadSize (data : Nat) : Nat := data &&& ((1 <<< 29) - 1)

/-- `Recordio_header::size`, `recordio_header.h` 46-51. -/
def headerSize : Nat := 4 * 2

/-- `align(s, 4)`, `detail/util.h` 24-27: `(s + 3) & ~3`.  In 64 bits `~3 = 2^64 - 4`. -/
def align4 (s : Nat) : Nat := (s + 4 - 1) &&& (W64 - 4)

/-- `Recordio_record_reader::decode_record`, `recordio_record_reader.cc` 32-75. -/
def recordioDecode (chunk : Bytes) (ignoreLeftover : Bool) : Dec Record :=
  if chunk.isEmpty then .more chunk 0
  else
    match decodeHeader chunk with
    | .err e => .fail e chunk
    | .ub w => .ub w
    | .ok none =>
      if ignoreLeftover then .more chunk 0 else .fail .corruptHeader chunk
    | .ok (some h) =>
      let payloadSize := headerPayloadSize h
      let recordSize := headerSize + align4 payloadSize
      if recordSize > chunk.length then
        if ignoreLeftover then .more chunk recordSize else .fail .corruptHeader chunk
      else
        match subslice chunk headerSize payloadSize with
        | .err e => .fail e chunk
        | .ub w => .ub w
        | .ok payload =>
          match subsliceFrom chunk recordSize with
          | .err e => .fail e chunk
          | .ub w => .ub w
          | .ok rest => .got ⟨headerKind h, payload⟩ rest

end Mlio
