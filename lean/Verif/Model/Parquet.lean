import Verif.Model.RecordIO

/-!
# Parquet container detection

`src/mlio/record_readers/parquet_record_reader.cc`.  All memory accesses are checked: an access outside of
the chunk is the outcome `ub`.
-/

namespace Mlio

/-- `as<std::uint8_t>(pos)`, `parquet_record_reader.cc` 156-159; `pos` is relative to `chunk.begin()`. -/
def loadU8 (b : Bytes) (pos : Int) : Res Nat :=
  if 0 ≤ pos ∧ pos < b.length then .ok (b.getD pos.toNat 0).toNat else .ub "load outside the chunk"

/-- `as<std::uint32_t>(pos)`, `parquet_record_reader.cc` 156-159, on a little-endian host.  Simplification:
alignment is left to `Verif/Model/Alignment.lean`. -/
def loadU32 (b : Bytes) (pos : Int) : Res Nat :=
  if 0 ≤ pos ∧ pos + 4 ≤ b.length then
    .ok (le32 (b.getD pos.toNat 0) (b.getD (pos.toNat + 1) 0) (b.getD (pos.toNat + 2) 0)
      (b.getD (pos.toNat + 3) 0))
  else .ub "load outside the chunk"

/-- `is_magic_number`, `parquet_record_reader.cc` 92-95. -/
def parquetIsMagic (b : Bytes) (pos : Int) : Res Bool := do
  let w ← loadU32 b pos
  .ok (w == 0x31524150)

/-- `is_file_metadata_begin`, `parquet_record_reader.cc` 138-153. -/
def parquetIsMetadataBegin (b : Bytes) (pos : Int) : Res Bool := do
  let h ← loadU8 b pos
  .ok (h == 0x15 || h == 0x29 || h == 0x36 || h == 0x49 || h == 0x59 || h == 0x68 || h == 0x79)

/-- `is_footer`, `parquet_record_reader.cc` 97-136. -/
def parquetIsFooter (b : Bytes) (pos : Int) : Res Bool := do
  let metadataEnd := pos - 4
  let size ← loadU32 b metadataEnd
  if size < 9 then .ok false
  else if 4 + (size : Int) > metadataEnd then .ok false
  else do
    let stop ← loadU8 b (metadataEnd - 1)
    if stop ≠ 0 then .ok false
    else parquetIsMetadataBegin b (metadataEnd - size)

/-- The scanning loop, `parquet_record_reader.cc` 73-83: the position of the footer magic number, if any.
`fuel` bounds the number of iterations. -/
def parquetScan (b : Bytes) : (fuel : Nat) → (pos : Nat) → Res (Option Nat)
  | 0, pos => if (pos : Int) ≤ (b.length : Int) - 4 then .err .diverges else .ok none
  | fuel + 1, pos =>
    if (pos : Int) ≤ (b.length : Int) - 4 then do
      let m ← parquetIsMagic b pos
      if m then do
        let f ← parquetIsFooter b pos
        if f then .ok (some pos) else parquetScan b fuel (pos + 1)
      else parquetScan b fuel (pos + 1)
    else .ok none

/-- `Parquet_record_reader::decode_record`, `parquet_record_reader.cc` 27-90. -/
def parquetDecode (chunk : Bytes) (ignoreLeftover : Bool) : Dec Record :=
  if chunk.isEmpty then .more chunk 0
  else if chunk.length < 4 then
    if ignoreLeftover then .more chunk 0 else .fail .corruptHeader chunk
  else
    match parquetIsMagic chunk 0 with
    | .err e => .fail e chunk
    | .ub w => .ub w
    | .ok false => .fail .corruptHeader chunk
    | .ok true =>
      if chunk.length < 2 * 4 + 4 then
        if ignoreLeftover then .more chunk 0 else .fail .corruptFooter chunk
      else
        match parquetScan chunk chunk.length (4 + 4) with
        | .err e => .fail e chunk
        | .ub w => .ub w
        | .ok none => if ignoreLeftover then .more chunk 0 else .fail .corruptFooter chunk
        | .ok (some pos) =>
          match sliceFirst chunk (pos + 4) with
          | .err e => .fail e chunk
          | .ub w => .ub w
          | .ok payload =>
            match subsliceFrom chunk (pos + 4) with
            | .err e => .fail e chunk
            | .ub w => .ub w
            | .ok rest => .got ⟨0, payload⟩ rest

end Mlio
