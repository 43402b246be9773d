import Verif.Proofs.Alignment
import Verif.Props.ChunkHeap

/-! # C105: integers are read at aligned addresses only -/

namespace Mlio
open Spec

/-- **C105** for RecordIO over streams: whatever the bytes of the stream are, how it cuts them, when it fails, and whatever the program does with the records,
all integers that are read while decoding are aligned, provided that blocks of memory are (`base` gives the address of every block, anew after each
resizing; `realloc` and `mmap` return addresses aligned for any integer). -/
theorem C105_recordio (junk : Nat → UInt8) (F : Filler) (f : F.σ) (size : Nat) (os : List HeapOp) (base : Nat → Nat → Nat)
    (hb : ∀ b g, Aligned (base b g)) (s : HSlice) (chunk : Bytes)
    (hs : (s, chunk) ∈ (Heap.init size).opsDecoded junk F recordioDecode (fun _ _ => 8) f os) :
    ReadsAligned recordioLoads (base s.block s.gen + s.off) chunk := by
  intro p hp
  have h1 := ops_aligned junk F (fun _ _ => 8) os (Heap.init size) f (fun s hs => by cases hs) _ hs
  exact Nat.dvd_add (Nat.dvd_add (hb _ _) h1) (recordioLoads_dvd chunk p hp)

-- The hypothesis is met: two records of 12 bytes in chunks of 16 bytes; the second record is decoded in the first chunk, where it is incomplete, and
-- at the start of the next one.
example : ((Heap.init 16).opsDecoded (fun _ => 7) streamFiller recordioDecode (fun _ _ => 8) ⟨twoFrames, []⟩ [.read 9, .read 9]).map
      (fun q => (q.1.block, q.1.off, recordioLoads q.2)) = [(0, 0, [0, 4]), (0, 12, []), (1, 0, [0, 4])] := by decide +kernel

/-- **C105** for RecordIO in the memory of a data store, partial: all integers are aligned if the memory is, whatever its contents.

Missing: memory at other addresses, see `C105_memory_violated`. -/
theorem C105_memory_partial (mem : Bytes) (address : Nat) (ha : Aligned address) (n : Nat) (start : Nat) (chunk : Bytes)
    (hs : (start, chunk) ∈ (OwnReader.open mem).decodedN recordioDecode (fun _ _ => 8) n) :
    ReadsAligned recordioLoads (address + start) chunk := by
  intro p hp
  rcases own_alignedN (fun _ _ => 8) n (OwnReader.open mem) (.inr (by simp [OwnReader.open])) _ hs with h1 | h1
  · exact Nat.dvd_add (Nat.dvd_add ha h1) (recordioLoads_dvd chunk p hp)
  · simp only at h1
    subst h1
    simp [recordioLoads, decodeHeader] at hp

example : ((OwnReader.open twoFrames).decodedN recordioDecode (fun _ _ => 8) 3).map (fun q => (q.1, recordioLoads q.2)) =
    [(24, []), (0, [0, 4]), (12, [0, 4]), (24, [])] := by decide +kernel

/-- **C105** is violated by memory that is not aligned, such as a part of another block or of a Python buffer: the first call reads an integer
that is not aligned, whatever the data are, if there are enough for a header. -/
theorem C105_memory_violated (mem : Bytes) (address : Nat) (ha : ¬ Aligned address) (hl : 8 ≤ mem.length) :
    ∃ q ∈ (OwnReader.open mem).decodedN recordioDecode (fun _ _ => 8) 1, ¬ ReadsAligned recordioLoads (address + q.1) q.2 := by
  refine ⟨(0, mem), ?_, fun h => ?_⟩
  · have hne : mem.isEmpty = false := by cases mem <;> simp_all
    simp [OwnReader.decodedN, OwnReader.open, OwnReader.decoded, hne, recordioDecode]
  · have h0 := h 0 (recordioLoads_first mem hl)
    exact ha h0

/-- **C105**, where Parquet reads: the integers that are read while decoding a chunk are the first four bytes; and if they are the magic number, the four
bytes at every position from the eighth on, up to the end of the first Parquet file or of the chunk, and the four bytes before it wherever the magic
number is.  In particular all of them are inside the chunk. -/
theorem C105_parquet_where (x : Bytes) (p : Nat) :
    (p ∈ parquetLoads x ↔ 4 ≤ x.length ∧ (p = 0 ∨ x.take 4 = par1 ∧ ∃ q, 8 ≤ q ∧ q + 4 ≤ x.length ∧
      (∀ q', 8 ≤ q' → q' < q → ¬ LooksParquet (x.take (q' + 4))) ∧ (p = q ∨ p + 4 = q ∧ (x.drop q).take 4 = par1))) ∧
    (p ∈ parquetLoads x → p + 4 ≤ x.length) := by
  have key : p ∈ parquetLoads x ↔ 4 ≤ x.length ∧ (p = 0 ∨ x.take 4 = par1 ∧ ∃ q, 8 ≤ q ∧ q + 4 ≤ x.length ∧
      (∀ q', 8 ≤ q' → q' < q → ¬ LooksParquet (x.take (q' + 4))) ∧ (p = q ∨ p + 4 = q ∧ (x.drop q).take 4 = par1)) := by
    unfold parquetLoads
    by_cases h4 : x.length < 4
    · rw [if_pos h4]
      simp only [List.not_mem_nil, false_iff]
      omega
    rw [if_neg h4]
    obtain ⟨m, h1, h2⟩ : ∃ m, parquetIsMagic x 0 = .ok m ∧ (m = true ↔ (x.drop 0).take 4 = par1) := isMagic_ok x 0 (by omega)
    rw [h1]
    rw [List.drop_zero] at h2
    cases m with
    | false =>
      have hn : ¬ x.take 4 = par1 := fun h => by simpa using h2.2 h
      simp only [List.mem_singleton, hn, false_and, or_false]
      omega
    | true =>
      have hm := h2.1 rfl
      simp only
      by_cases h12 : x.length < 2 * 4 + 4
      · rw [if_pos h12]
        simp only [List.mem_singleton]
        constructor
        · intro h; exact ⟨by omega, .inl h⟩
        · rintro ⟨-, h | ⟨-, q, h8, hq, -⟩⟩
          · exact h
          · omega
      · rw [if_neg h12, List.mem_cons, scanLoads_iff x hm p x.length (4 + 4) (by omega) (by omega)]
        constructor
        · rintro (h | h)
          · exact ⟨by omega, .inl h⟩
          · exact ⟨by omega, .inr ⟨hm, h⟩⟩
        · rintro ⟨-, h | ⟨-, h⟩⟩
          · exact .inl h
          · exact .inr h
  refine ⟨key, fun h => ?_⟩
  obtain ⟨h4, h | ⟨-, q, -, hq, -, h | ⟨h, -⟩⟩⟩ := key.1 h <;> omega

/-- **C105**, where RecordIO reads: the first four bytes of a chunk of at least eight bytes, and the next four if the first are the magic number. -/
theorem C105_recordio_where (x : Bytes) (p : Nat) :
    p ∈ recordioLoads x ↔ 8 ≤ x.length ∧ (p = 0 ∨ p = 4 ∧ x.take 4 = [0x0A, 0x23, 0xD7, 0xCE]) := by
  unfold recordioLoads decodeHeader
  split <;> rename_i h
  · split at h
    · split at h <;> simp at h
    · rename_i hn
      simp only [List.not_mem_nil, false_iff]
      rintro ⟨h8, -⟩
      match x, h8 with
      | b0 :: b1 :: b2 :: b3 :: c0 :: c1 :: c2 :: c3 :: t, _ => exact hn _ _ _ _ _ _ _ _ _ rfl
  · split at h
    · rename_i b0 b1 b2 b3 c0 c1 c2 c3 t
      split at h
      · cases h
      · rename_i hmagic
        have := (le32_magic b0 b1 b2 b3).1 (Decidable.not_not.1 hmagic)
        simp [this]
    · cases h
  · rename_i h'
    split at h'
    · rename_i b0 b1 b2 b3 c0 c1 c2 c3 t
      split at h'
      · rename_i hmagic
        have : ¬ (b0 :: b1 :: b2 :: b3 :: c0 :: c1 :: c2 :: c3 :: t).take 4 = [0x0A, 0x23, 0xD7, 0xCE] :=
          fun h => hmagic ((le32_magic b0 b1 b2 b3).2 (by simpa using h))
        simp only [this, and_false, or_false, List.mem_singleton, List.length_cons]
        omega
      · exact (h _ (if_neg (by assumption))).elim
    · exact (h' rfl).elim

example : parquetLoads (par1 ++ [0x15, 0, 0, 0, 0, 0, 0, 0, 0] ++ u32le 9 ++ par1) = [0, 8, 9, 10, 11, 12, 13, 14, 15, 16, 17, 13] ∧
    recordioLoads ([1] ++ par1 ++ [0, 0, 0]) = [0] := by decide +kernel

/-- **C105** is violated by every Parquet record, at whatever address: while looking for the end of the record integers are read at successive addresses. -/
theorem C105_parquet_violated (x rest : Bytes) (ig : Bool) (r : Record) (h : parquetDecode x ig = .got r rest) (address : Nat) :
    ¬ ReadsAligned parquetLoads address x := by
  obtain ⟨y, h1, h2, -⟩ := parquet_got_inv h
  have hlen := looks_length h2.1
  have hhead := looks_head h2.1
  have hx : 13 ≤ x.length := by rw [h1, List.length_append]; omega
  have hm : x.take 4 = par1 := by rw [h1, List.take_append_of_le_length (by omega), hhead]
  intro ha
  obtain ⟨h8, h9⟩ := parquetLoads_two x hm hx
  have e8 : 4 ∣ address + 8 := ha 8 h8
  have e9 : 4 ∣ address + 9 := ha 9 h9
  omega

-- A Parquet record of 21 bytes.
example : ∃ r rest, parquetDecode (par1 ++ [0x15, 0, 0, 0, 0, 0, 0, 0, 0] ++ u32le 9 ++ par1) true = .got r rest :=
  ⟨⟨0, par1 ++ [0x15, 0, 0, 0, 0, 0, 0, 0, 0] ++ u32le 9 ++ par1⟩, [], by decide +kernel⟩

end Mlio
