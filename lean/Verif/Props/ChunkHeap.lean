import Verif.Proofs.ChunkHeap
import Verif.Proofs.Cuts
import Verif.Spec.RecordIO

/-! # C50, C61: Records and the memory of their payloads -/

namespace Mlio

open Spec

/-- **C50.** Whatever is read, copied and released, over every stream (short reads, errors at any point), every chunk
size and every contents of fresh memory: all records that still exist show the bytes they showed when they were read.
`Intact` follows the payload's address into the memory, so it fails when the memory was written to or moved. -/
theorem C50_payloads_intact (dec : Bytes → Bool → Dec Record) (off : Bytes → Bool → Nat) (hd : Located dec off)
    (junk : Nat → UInt8) (F : Filler) (f : F.σ) (size : Nat) (os : List HeapOp) :
    Intact ((Heap.init size).ops junk F dec off f os).2.1 :=
  (ops_safe junk F dec off hd os (Heap.init size) f ⟨by intro r hr; simp [Heap.init] at hr,
    by intro b hb; simp [Heap.init] at hb⟩ (by simp [Heap.init])).intact

/-- **C50**, the hypothesis of `C50_payloads_intact` holds for all record formats. -/
theorem C50_all_formats (p : CsvParams) (skipBlank : Bool) :
    Located recordioDecode (fun _ _ => 8) ∧ (∃ off, Located parquetDecode off) ∧ (∃ off, Located (csvDecode p) off) ∧
    (∃ off, Located (textDecode skipBlank) off) := by
  refine ⟨⟨?_, ?_, ?_⟩, located_of_cuts parquet_cuts, located_of_cuts (csv_cuts p), located_of_cuts (text_cuts skipBlank)⟩
  · intro x ig r rest h
    have hc := recordio_cuts x ig
    rw [h] at hc
    refine ⟨hc.2.1, hc.2.2, ?_⟩
    unfold recordioDecode at h
    simp only at h
    repeat' split at h
    all_goals first
      | (cases h; done)
      | (rename_i hs _ _ hr
         cases h
         have hrl := (subsliceFrom_suffix hr).2
         have hal := headerPayload_le ‹Nat›
         unfold subslice at hs
         split at hs
         · rename_i hle
           cases hs
           simp only [headerSize] at *
           refine ⟨by simp only [List.length_take, List.length_drop]; omega, ?_⟩
           congr 1
           simp only [List.length_take, List.length_drop]
           omega
         · cases hs)
  · intro x ig rest k h
    have hc := recordio_cuts x ig
    rw [h] at hc
    exact hc
  · intro x ig e rest h
    have hc := recordio_cuts x ig
    rw [h] at hc
    exact hc

/-- **C50**, the memory does not show: with a stream that does not fail, whatever is copied and released, every read
returns what the reader of `C01`-`C15` (which has no memory) returns, so there is no access to released memory. -/
theorem C50_memory_invisible (dec : Bytes → Bool → Dec Record) (off : Bytes → Bool → Nat) (hd : Located dec off)
    (junk : Nat → UInt8) (size : Nat) (data : Bytes) (sched : List Nat) (os : List HeapOp) :
    ((Heap.init size).ops junk streamFiller dec off ⟨data, sched⟩ os).1 =
      plainReads dec (Reader.init size data sched) os :=
  ops_rel junk dec off hd os _ _ _ ⟨rfl, rfl, rfl, rfl, by simp [Heap.init], by simp [Heap.init, Reader.init],
    by simp [Reader.init]⟩

/-- Two records of 12 bytes each, the second `[4, 5]` with two bytes of padding. -/
def twoFrames : Bytes := recordioFile [⟨0, [1, 2, 3], [9]⟩, ⟨0, [4, 5], [0, 0]⟩]

-- A test, not a proof: with room for one record, the first record held: it stays in the first block, and the second
-- record is in another one; with the first one released the block is used again.
example :
    let h := ((Heap.init 12).ops (fun _ => 7) streamFiller recordioDecode (fun _ _ => 8) ⟨twoFrames, []⟩
      [.read 9, .read 9]).2.1
    h.held.map (fun r => (r.1.block, r.2)) = [(1, [4, 5]), (0, [1, 2, 3])] ∧
    h.held.map (fun r => deref h.blocks r.1) = [some [4, 5], some [1, 2, 3]] := by decide

example :
    let h := ((Heap.init 12).ops (fun _ => 7) streamFiller recordioDecode (fun _ _ => 8) ⟨twoFrames, []⟩
      [.read 9, .release 0, .read 9]).2.1
    h.held.map (fun r => (r.1.block, r.2)) = [(0, [4, 5])] := by decide

/-- **C61**, the part that holds: when the stream fails while a fresh block is being filled, the bytes not decoded yet
are still there and reading again goes on from them.
Missing: when the chunk reader's own block is filled, see `C61_retry_violated` and `C61_retry_garbled_violated`. -/
theorem C61_retry_partial (junk : Nat → UInt8) (F : Filler) (f : F.σ) (h h' : Heap) (f' : F.σ) (e : Err)
    (leftover : Bytes) (hs : ∀ s, h.slice = some s → s.block < h.blocks.length) (hc : h.chunk = none)
    (hf : h.readChunk junk F leftover f = (.err e, h', f')) : h'.view = h.view := by
  unfold Heap.readChunk at hf
  split at hf
  · cases hf
  · simp only [Heap.prepare, hc] at hf
    split at hf
    · cases hf
    · split at hf
      · cases hf
      · rename_i blk hb _
        simp only [Heap.filled] at hf
        split at hf
        · cases hf
          simp only [Heap.view]
          cases hsl : h.slice with
          | none => rfl
          | some s =>
            have := hs s hsl
            simp only
            rw [deref_set (by omega), deref_append this]
        · cases hf
        · cases hf

/-- A stream that delivers the texts in turn, filling what is asked for, and fails after those marked `true`. -/
def flaky : Filler where
  σ := List (Bytes × Bool)
  fill
    | [], _ => ([], .eof, [])
    | (b, true) :: rest, n => (b.take n, .threw .systemError, rest)
    | (b, false) :: rest, n => (b.take n, if b.length < n then .eof else .full, rest)

-- The hypotheses are met: the very first read fails.
example : (Heap.init 4).readChunk (fun _ => 7) flaky [] [([], true), ([97, 10, 98], false)] =
    (.err .systemError, ⟨[⟨0, [7, 7, 7, 7]⟩], some 0, 4, false, none, []⟩, [([97, 10, 98], false)]) := by rfl

/-- **C61 is false in general.** Text lines through a chunk of four bytes, the stream delivers `abcd`, fails once and
then delivers `e\n`.  The block had been resized before the failure, which moves it, and the reader's slice still points
to the old place: the second read accesses released memory. -/
theorem C61_retry_violated :
    ∃ off, Located (textDecode false) off ∧
      ((Heap.init 4).ops (fun _ => 7) flaky (textDecode false) off
        [([97, 98, 99, 100], false), ([], true), ([101, 10], false)]
        [.read 9, .read 9]).1 = [.err .systemError, .ub "dangling chunk"] := by
  obtain ⟨off, ho⟩ := located_of_cuts (text_cuts false)
  refine ⟨off, ho, ?_⟩
  rfl

/-- **C61 is false in general.** Without a resize the bytes not decoded yet are moved to the front of the block, but the
slice stays: the stream delivers `a\nbc`, then `d` and fails, and then delivers `e\n`.  After the line `a` (and its release) the
second read fails; the third one returns the line `dce`, which is in no part of the stream. -/
theorem C61_retry_garbled_violated :
    ∃ off, Located (textDecode false) off ∧
      ((Heap.init 4).ops (fun _ => 7) flaky (textDecode false) off
        [([97, 10, 98, 99], false), ([100], true), ([101, 10], false)]
        [.read 9, .release 0, .read 9, .read 9]).1 =
        [.ok (some ⟨0, [97]⟩), .ok none, .err .systemError, .ok (some ⟨0, [100, 99, 101]⟩)] := by
  obtain ⟨off, ho⟩ := located_of_cuts (text_cuts false)
  refine ⟨off, ho, ?_⟩
  rfl

end Mlio
