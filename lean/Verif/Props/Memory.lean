import Verif.Proofs.Memory

/-!
# C44, C45, C49, C55: memory slices, streams, instances and blocks
-/

namespace Mlio
open Spec

/-! ## C44 -/

/-- C44, `subslice(offset, count)`: for all 64-bit arguments exactly the requested bytes, in the block, or an
exception if they are not all in the slice. -/
theorem C44_subslice (b : Bytes) (s : PSlice) (h : InBlock b s) (offset count : Nat) (ho : offset < 2 ^ 64)
    (hc : count < 2 ^ 64) : IsPart b (s.bytes b) offset count (s.subslice offset count) :=
  subslice_part h offset count ho hc

/-- C44, `subslice(offset)`: all bytes from the offset on. -/
theorem C44_subslice_from (b : Bytes) (s : PSlice) (h : InBlock b s) (offset : Nat) (ho : offset < 2 ^ 64) :
    IsPart b (s.bytes b) offset ((s.bytes b).length - offset) (s.subslice1 offset) := subslice1_part h offset ho

/-- C44, `first(count)`. -/
theorem C44_first (b : Bytes) (s : PSlice) (h : InBlock b s) (count : Nat) (hc : count < 2 ^ 64) :
    IsPart b (s.bytes b) 0 count (s.first count) := first_part h count hc

/-- C44, `last(count)`. -/
theorem C44_last (b : Bytes) (s : PSlice) (h : InBlock b s) (count : Nat) (hc : count < 2 ^ 64) :
    IsPart b (s.bytes b) ((s.bytes b).length - count) count (s.last count) := last_part h count hc

/-- C44, ranges given by two iterators of the block: accepted exactly if they are in order and in the slice. -/
theorem C44_range (b : Bytes) (s : PSlice) (h : InBlock b s) (first last : Int) :
    (s.beg ≤ first ∧ first ≤ last ∧ last ≤ s.fin → s.range first last = .ok ⟨first, last⟩ ∧ InBlock b ⟨first, last⟩) ∧
    (¬ (s.beg ≤ first ∧ first ≤ last ∧ last ≤ s.fin) → s.range first last = .err .invalidArgument) := by
  obtain ⟨h1, h2, h3, h4⟩ := h
  unfold PSlice.range
  constructor
  · intro hh
    rw [if_neg (by omega), if_neg (by omega)]
    exact ⟨rfl, by simp only; omega, by simp only; omega, by simp only; omega, h4⟩
  · intro hh
    split
    · rfl
    · rw [if_pos (by omega)]

/-- In the block `1 2 3 4 5`, the slice `2 3 4`. -/
example : InBlock [1, 2, 3, 4, 5] ⟨1, 4⟩ ∧ PSlice.bytes [1, 2, 3, 4, 5] ⟨1, 4⟩ = [2, 3, 4] ∧
    (PSlice.mk 1 4).subslice 1 2 = .ok ⟨2, 4⟩ ∧ (PSlice.mk 1 4).subslice 1 3 = .err .invalidArgument ∧
    (PSlice.mk 1 4).subslice 2 (2 ^ 64 - 1) = .err .invalidArgument ∧
    (PSlice.mk 1 4).last 2 = .ok ⟨2, 4⟩ ∧ (PSlice.mk 1 4).last 4 = .err .invalidArgument := by
  refine ⟨⟨by decide, by decide, by decide, by decide⟩, by decide, by decide, by decide, by decide, by decide, by decide⟩

/-! ## C45 -/

/-- C45: every sequence of calls with arguments below `2 ^ 63` gives the same as on a cursor over the bytes of the
slice.

Partial: larger arguments move the position in front of the slice, see `C45_large_seek_violated` and
`C45_large_read_violated`. -/
theorem C45_cursor_partial (b : Bytes) (s : PSlice) (h : InBlock b s) (ks : List StreamCall)
    (hk : ∀ k ∈ ks, StreamCall.Small k) :
    (MemStream.new s).calls b ks = (Cursor.mk 0 false).calls (s.bytes b) ks :=
  memRel_calls h ks _ _ ⟨rfl, fun _ => rfl, fun _ => by simp [MemStream.new], by simp⟩ hk

/-- C45 for files: every sequence of calls with any arguments gives the same as on a cursor over the contents of the
file, except that reads may be short. -/
theorem C45_file_cursor (x : Bytes) (sched : List Nat) (ks : List StreamCall) :
    ShortCalls x ⟨0, false⟩ ks ((FileStream.new sched).calls x ks) :=
  fileRel_calls x ks _ _ ⟨rfl, rfl, by simp, Or.inl rfl⟩

example : (Cursor.mk 0 false).calls [2, 3, 4] [.read 2, .position, .readInto 2, .readInto 1, .seek 1, .read 9, .size,
      .close, .read 1] =
    [.bytes (.ok [2, 3]), .num (.ok 2), .bytes (.ok [4]), .bytes (.ok []), .unit (.ok ()), .bytes (.ok [3, 4]),
      .num (.ok 3), .unit (.ok ()), .bytes (.err .streamError)] ∧
    (∀ k ∈ [StreamCall.read 2, .position, .readInto 2, .readInto 1, .seek 1, .read 9, .size, .close, .read 1],
      StreamCall.Small k) := by
  refine ⟨by decide, ?_⟩
  intro k hk
  simp only [List.mem_cons, List.not_mem_nil, or_false] at hk
  rcases hk with rfl | rfl | rfl | rfl | rfl | rfl | rfl | rfl | rfl <;> simp [StreamCall.Small]

/-- A file of three bytes of which the first read delivers one. -/
example : (FileStream.new [1]).calls [2, 3, 4] [.readInto 3, .readInto 3, .seek 7, .position] =
    [.bytes (.ok [2]), .bytes (.ok [3, 4]), .unit (.ok ()), .num (.ok 3)] := by decide

/-- Seeking far beyond the end goes in front of the beginning; the next read is outside of the block. -/
theorem C45_large_seek_violated :
    (MemStream.new ⟨0, 3⟩).calls [2, 3, 4] [.seek (2 ^ 64 - 1), .position, .readInto 2] =
      [.unit (.ok ()), .num (.ok (2 ^ 64 - 1)), .bytes (.ub "read outside of the block")] := by decide

/-- Asking for too many bytes throws and leaves the position in front of the beginning. -/
theorem C45_large_read_violated :
    (MemStream.new ⟨0, 3⟩).calls [2, 3, 4] [.read (2 ^ 64 - 1), .readInto 2] =
      [.bytes (.err .invalidArgument), .bytes (.ub "read outside of the block")] := by decide

/-! ## C49 -/

/-- C49: the bits of the instance are all the bytes of the store, whatever the reads deliver at once, and loading
ends after at most one round per byte.

Partial: not for an empty store with a seekable stream that is not zero copy, see `C49_empty_violated`. -/
theorem C49_whole_store_partial (st : StoreStream) (short fuel : Nat)
    (h : st.seekable = true → (st.zeroCopy = true ∧ short = 0) ∨ st.stream.data ≠ [])
    (hf : st.stream.data.length + 1 < fuel) : loadBits fuel short st = .ok st.stream.data := by
  unfold loadBits
  split
  · rename_i hz
    simp only [Bool.and_eq_true, beq_iff_eq, List.length_take] at hz
    rw [List.take_of_length_le (by omega)]
  · rename_i hz
    rw [readStreamLoop_spec st.seekable st.stream.data.length fuel st.stream [] none ⟨rfl, ?_⟩ hf]
    · rfl
    · intro hk
      rcases h hk with ⟨h1, h2⟩ | h1
      · subst h2
        simp only [Nat.sub_zero, h1, List.take_length, beq_self_eq_true, Bool.and_self, not_true_eq_false] at hz
      · exact List.length_pos_iff.2 h1

example : loadBits 9 0 ⟨false, true, ⟨[1, 2, 3, 4], [1, 2]⟩⟩ = .ok [1, 2, 3, 4] := by decide

/-- An empty file that is not memory mapped, or an empty S3 object: loading does not end, whatever number of rounds
it is given. -/
theorem C49_empty_violated (fuel short : Nat) (sched : List Nat) :
    loadBits fuel short ⟨false, true, ⟨[], sched⟩⟩ = .err .diverges := by
  unfold loadBits
  exact readStreamLoop_empty 0 rfl fuel _ none (Or.inl rfl)

/-! ## C55 -/

/-- C55: resizing gives a block of the requested size that keeps the common prefix.

Partial: not for a block of the file-backed allocator that has grown beyond the threshold in one step and is then
made smaller, see `C55_shrink_violated`. -/
theorem C55_resize_partial (junk : Nat → UInt8) (b : Block) (size : Nat) (hr : b.resizable = true)
    (h : ∀ t, b.kind = .hybrid false t → b.data.length ≤ t ∨ b.data.length ≤ size) :
    ∃ b', b.resize junk size = .ok b' ∧ b'.resizable = true ∧ b'.data.length = size ∧
      b'.data.take (min b.data.length size) = b.data.take size := by
  obtain ⟨kind, data⟩ := b
  cases kind with
  | heap => exact ⟨_, rfl, rfl, reallocBytes_spec junk data size⟩
  | fileBacked => exact ⟨_, rfl, rfl, ftruncateBytes_spec data size⟩
  | fixed => simp [Block.resizable] at hr
  | hybrid fb t =>
    cases fb with
    | true => exact ⟨_, rfl, by simp [Block.resizable], ftruncateBytes_spec data size⟩
    | false =>
      simp only at h
      have h := h t rfl
      by_cases ht : data.length > t
      · have hs : data.length ≤ size := by omega
        refine ⟨⟨.hybrid true t, data ++ List.replicate (size - data.length) 0⟩, ?_, by simp [Block.resizable], ?_, ?_⟩
        · simp only [Block.resize, ht, if_true]
          rw [if_neg (by omega)]
        · simp only [List.length_append, List.length_replicate]; omega
        · simp only
          rw [List.take_append_of_le_length (by omega), List.take_of_length_le (by omega),
            List.take_of_length_le hs]
      · refine ⟨⟨.hybrid false t, reallocBytes junk data size⟩, ?_, by simp [Block.resizable],
          reallocBytes_spec junk data size⟩
        simp only [Block.resize, ht, if_false]

/-- C55 for a growing block, as used by the record readers and by instances: after any sequence of growing sizes, in
any block of the library, around any threshold, the block still starts with all of its bytes and has the last size. -/
theorem C55_growing (junk : Nat → UInt8) : ∀ (sizes : List Nat) (b : Block), b.resizable = true →
    (b.data.length :: sizes).Pairwise (· ≤ ·) →
    ∃ b', b.resizes junk sizes = .ok b' ∧ b'.data.length = (b.data.length :: sizes).getLast (by simp) ∧
      b.data <+: b'.data
  | [], b, _, _ => ⟨b, rfl, rfl, List.prefix_refl _⟩
  | s :: ss, b, hr, hp => by
    have hle : b.data.length ≤ s := (List.pairwise_cons.1 hp).1 s (by simp)
    obtain ⟨b1, h1, h2, h3, h4⟩ := C55_resize_partial junk b s hr (fun t _ => Or.inr hle)
    obtain ⟨b', h5, h6, h7⟩ := C55_growing junk ss b1 h2 (by rw [h3]; exact (List.pairwise_cons.1 hp).2)
    refine ⟨b', ?_, ?_, ?_⟩
    · unfold Block.resizes
      simp only [h1, h5]
    · rw [h6]
      simp only [h3, List.getLast_cons_cons]
    · refine List.IsPrefix.trans ?_ h7
      rw [Nat.min_eq_left hle, List.take_of_length_le hle] at h4
      rw [← h4]
      exact List.take_prefix _ _

/-- C55 for `resize_memory_block`, which copies into a new block if the given one cannot be resized. -/
theorem C55_resize_memory_block_partial (junk : Nat → UInt8) (al : Allocator) (b : Block) (size : Nat)
    (h : ∀ t, b.kind = .hybrid false t → b.data.length ≤ t ∨ b.data.length ≤ size) :
    ∃ b', resizeBlock junk al b size = .ok b' ∧ b'.data.length = size ∧
      b'.data.take (min b.data.length size) = b.data.take size := by
  unfold resizeBlock
  by_cases hr : b.resizable = true
  · rw [if_pos hr]
    obtain ⟨b', h1, _, h2⟩ := C55_resize_partial junk b size hr h
    exact ⟨b', h1, h2⟩
  · rw [if_neg hr]
    have hal : (al.allocate junk size).data.length = size := by
      cases al with
      | heap => exact (reallocBytes_spec junk [] size).1
      | fileBacked t =>
        simp only [Allocator.allocate]
        split
        · simp
        · exact (reallocBytes_spec junk [] size).1
    have hn : (if size > b.data.length then b.data.length else size) = min b.data.length size := by
      split <;> omega
    refine ⟨_, rfl, ?_, ?_⟩
    · simp only [hn, List.length_append, List.length_take, List.length_drop, hal]
      omega
    · simp only [hn]
      rw [List.take_append_of_le_length (by simp only [List.length_take]; omega), List.take_take, Nat.min_self]
      by_cases hx : b.data.length ≤ size
      · rw [Nat.min_eq_left hx, List.take_of_length_le (Nat.le_refl _), List.take_of_length_le hx]
      · congr 1; omega

/-- Blocks of both allocators have the requested size and can be resized. -/
theorem C55_allocate (junk : Nat → UInt8) (al : Allocator) (size : Nat) :
    (al.allocate junk size).data.length = size ∧ (al.allocate junk size).resizable = true := by
  cases al with
  | heap => exact ⟨(reallocBytes_spec junk [] size).1, rfl⟩
  | fileBacked t =>
    simp only [Allocator.allocate]
    split
    · exact ⟨by simp, rfl⟩
    · exact ⟨(reallocBytes_spec junk [] size).1, by simp [Block.resizable]⟩

/-- Threshold 2: a block of one byte grows to four bytes on the heap, then to six in a file. -/
example : (Block.mk (.hybrid false 2) [7]).resizes (fun _ => 9) [4, 6] = .ok ⟨.hybrid true 2, [7, 9, 9, 9, 0, 0]⟩ := by
  decide

/-- With the threshold 2, a block of one byte that grows to four bytes and then shrinks to three: four bytes are copied
into a block of three. -/
theorem C55_shrink_violated :
    (Allocator.allocate (fun _ => 9) (.fileBacked 2) 1).resizes (fun _ => 9) [4, 3] =
      .ub "write beyond the new block" := by decide

end Mlio
