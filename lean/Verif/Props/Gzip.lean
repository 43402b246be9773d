import Verif.Proofs.Gzip
import Verif.Proofs.GzBlocks

/-!
# Inflating streams: C47
-/

namespace Mlio
open Spec

/-- C47: for every format, every gzip file and every pattern of read sizes and of short reads, no read fails, and what they
give is consecutive parts of the contents from their beginning; and whoever goes on reading often enough, even after
reads that give nothing, gets all of it.  Missing: that a read gives nothing only at the end, see
`C47_empty_member_violated` and `C47_short_read_violated`; reads of 4 GiB and more, see `C47_count_violated`. -/
theorem C47_contents_partial (z : Inflater) (ms : List (Bytes × Bytes)) (all contents : Bytes) (h : GzFile z ms all contents)
    (sched ns : List Nat) (hs : Sizes ns) :
    (∀ r ∈ (GzStream.new (m := streamIn) z ⟨all, sched⟩).reads ns, ∃ b, r = .ok (b.length, b)) ∧
    (((GzStream.new (m := streamIn) z ⟨all, sched⟩).reads ns).map given).flatten <+: contents ∧
    (contents.length + all.length < ns.length → (((GzStream.new (m := streamIn) z ⟨all, sched⟩).reads ns).map given).flatten = contents) := by
  obtain ⟨h1, h2, _⟩ := gz_reads ns _ contents .clean (new_gzInv z all sched contents .clean (unzips_file h)) hs
  refine ⟨(h1 rfl).1, (h1 rfl).2, fun hl => h2 ?_ rfl⟩
  simpa [GzStream.left, GzStream.new] using hl

/-- C47: what is not a gzip file (damaged or cut off) is not read as one: whoever goes on reading gets an error. -/
theorem C47_damaged (z : Inflater) (all : Bytes) (h : ¬ ∃ ms contents, GzFile z ms all contents) (sched : List Nat) :
    ∃ N, ∀ ns, Sizes ns → N ≤ ns.length → Res.err .inflateError ∈ (GzStream.new (m := streamIn) z ⟨all, sched⟩).reads ns := by
  obtain ⟨text, e, hu⟩ := unzips_total z all z.init true
  have he : e ≠ .clean := by
    intro he
    obtain ⟨ms, hms⟩ := (file_unzips hu he).2 rfl rfl
    exact h ⟨ms, text, hms⟩
  refine ⟨text.length + all.length + 1, fun ns hs hl => ?_⟩
  obtain ⟨_, _, h3⟩ := gz_reads ns _ text e (new_gzInv z all sched text e hu) hs
  obtain ⟨r, hr, rfl⟩ := h3 (by simp only [GzStream.left, GzStream.new, List.length_nil]; omega) he
  exact hr

/-- C47: a file of at most 512 KiB that the underlying stream delivers at once, and of which no member is empty, is read
completely by whoever stops at the first read that gives nothing. -/
theorem C47_until_zero_partial (z : Inflater) (ms : List (Bytes × Bytes)) (all contents : Bytes) (h : GzFile z ms all contents)
    (hne : ∀ m ∈ ms, m.2 ≠ []) (hsize : all.length ≤ 0x80000) (ns : List Nat) (hs : Sizes ns) :
    FullReads contents ns ((GzStream.new (m := streamIn) z ⟨all, []⟩).reads ns) := by
  rcases ns with _ | ⟨n, ns⟩
  · exact .nil _
  · have e1 : (Stream.mk all []).read 0x80000 = (all, ⟨[], []⟩) := by
      simp only [Stream.read, Prod.mk.injEq, Stream.mk.injEq, and_true]
      exact ⟨List.take_of_length_le hsize, List.drop_eq_nil_of_le hsize⟩
    have hready : GzReady (⟨⟨[], []⟩, all, z.init, [], .streamEnd⟩ : GzStream streamIn z) contents :=
      ready_of_file h hne _ rfl rfl rfl rfl rfl
    obtain ⟨hn, hn'⟩ := hs n (by simp)
    have same : (GzStream.new (m := streamIn) z ⟨all, []⟩).read n = (⟨⟨[], []⟩, all, z.init, [], .streamEnd⟩ : GzStream streamIn z).read n := by
      have hn0 : ¬ n = 0 := by omega
      unfold GzStream.read
      simp only [hn0, if_false]
      have e0 : (Stream.mk [] []).read 0x80000 = ([], ⟨[], []⟩) := by simp [Stream.read]
      rcases all with _ | ⟨x, xs⟩
      · simp only [GzStream.new, List.isEmpty_nil, if_true, e0]
      · simp only [GzStream.new, List.isEmpty_nil, if_true, e1, List.isEmpty_cons, Bool.false_eq_true, if_false]
    have := ready_reads (n :: ns) _ contents hready hs
    simp only [GzStream.reads] at this ⊢
    rw [same]
    exact this

/-- A member with the contents `7 7 7 9`. -/
theorem exMember : MemberFrom toyInflater none [31, 3, 7, 1, 9, 0] [7, 7, 7, 9] := by
  refine .more (z := toyInflater) none (some none) 31 _ [] [7, 7, 7, 9] rfl ?_
  refine .more (z := toyInflater) (some none) (some (some 3)) 3 _ [] [7, 7, 7, 9] rfl ?_
  refine .more (z := toyInflater) (some (some 3)) (some none) 7 _ [7, 7, 7] [9] rfl ?_
  refine .more (z := toyInflater) (some none) (some (some 1)) 1 _ [] [9] rfl ?_
  refine .more (z := toyInflater) (some (some 1)) (some none) 9 _ [9] [] rfl ?_
  exact .last (z := toyInflater) (some none) 0 rfl

/-- A member without contents. -/
theorem exEmptyMember : MemberFrom toyInflater none [31, 0] [] :=
  .more (z := toyInflater) none (some none) 31 _ [] [] rfl (.last (z := toyInflater) (some none) 0 rfl)

theorem exGz : GzFile toyInflater [([31, 3, 7, 1, 9, 0], [7, 7, 7, 9]), ([31, 3, 7, 1, 9, 0], [7, 7, 7, 9])]
    [31, 3, 7, 1, 9, 0, 31, 3, 7, 1, 9, 0] [7, 7, 7, 9, 7, 7, 7, 9] :=
  ⟨by intro m hm; simp only [List.mem_cons, List.not_mem_nil, or_false, or_self] at hm; subst hm; exact exMember, rfl, rfl⟩

example : FullReads [7, 7, 7, 9, 7, 7, 7, 9] [2, 5, 3, 3, 3]
    ((GzStream.new (m := streamIn) toyInflater ⟨[31, 3, 7, 1, 9, 0, 31, 3, 7, 1, 9, 0], []⟩).reads [2, 5, 3, 3, 3]) :=
  C47_until_zero_partial _ _ _ _ exGz (by simp) (by decide) _ (by simp [Sizes])

example : (GzStream.new (m := streamIn) toyInflater ⟨[31, 3, 7, 1, 9, 0, 31, 3, 7, 1, 9, 0], []⟩).reads [2, 5, 3, 3, 3] =
    [.ok (2, [7, 7]), .ok (2, [7, 9]), .ok (3, [7, 7, 7]), .ok (1, [9]), .ok (0, [])] := by decide

/-- C47, partial: for every kind of underlying stream and every way in which it delivers the file: if wherever a block or a
member begins the bytes up to the end of the block or member stand for something (or no contents follow), reads give
the contents, and nothing only at their end.  Missing: other files, see `C47_empty_member_violated` and
`C47_short_read_violated`. -/
theorem C47_blocks_partial {m : InStream} (z : Inflater) (s : m.σ) (blocks : List Bytes) (hd : Delivers m s blocks)
    (ms : List (Bytes × Bytes)) (contents : Bytes) (h : GzFile z ms blocks.flatten contents) (ha : Audible z blocks)
    (ns : List Nat) (hs : Sizes ns) : FullReads contents ns ((GzStream.new z s).reads ns) :=
  gzOk_reads ns _ _ _ (new_gzOk hd h ha) hs

/-- The file of `exGz` in three blocks, the second of which begins in the middle of a run. -/
example : Delivers streamIn (⟨[31, 3, 7, 1, 9, 0, 31, 3, 7, 1, 9, 0], [4, 5, 3]⟩ : Stream) [[31, 3, 7, 1], [9, 0, 31, 3, 7], [1, 9, 0]] ∧
    GzFile toyInflater [([31, 3, 7, 1, 9, 0], [7, 7, 7, 9]), ([31, 3, 7, 1, 9, 0], [7, 7, 7, 9])]
      [[31, 3, 7, 1], [9, 0, 31, 3, 7], [1, 9, 0]].flatten [7, 7, 7, 9, 7, 7, 7, 9] ∧
    Audible toyInflater [[31, 3, 7, 1], [9, 0, 31, 3, 7], [1, 9, 0]] := by
  refine ⟨⟨by simp, ⟨[9, 0, 31, 3, 7, 1, 9, 0], [5, 3]⟩, rfl, by simp, ⟨[1, 9, 0], [3]⟩, rfl, by simp, ⟨[], []⟩, rfl, ?_⟩, exGz,
    audible_of_check (by decide)⟩
  intro k
  induction k with
  | zero => rfl
  | succ k ih => exact congrArg (Res.ok [] :: ·) ih

/-- A damaged file. -/
example : ¬ ∃ ms contents, GzFile toyInflater ms [31, 3] contents := by
  rintro ⟨ms, c, h⟩
  have h1 := unzips_file h
  have h2 : Unzips toyInflater toyInflater.init true [31, 3] ([] ++ ([] ++ [])) .truncated :=
    .more (z := toyInflater) none (some none) true 31 _ [] _ _ rfl
      (.more (z := toyInflater) (some none) (some (some 3)) false 3 _ [] _ _ rfl (.cut _))
  have := (unzips_fun h1 h2).2
  cases this

/-- C47 fails for a file with an empty member in the middle: after the first member a read gives nothing although the
contents of the last one are still to come, for any way of reading and any chunking of the file. -/
theorem C47_empty_member_violated : ∃ ms all contents, GzFile toyInflater ms all contents ∧
    contents = [7, 7, 7, 9, 7, 7, 7, 9] ∧
    (GzStream.new (m := streamIn) toyInflater ⟨all, []⟩).reads [100, 100, 100] = [.ok (4, [7, 7, 7, 9]), .ok (0, []), .ok (4, [7, 7, 7, 9])] := by
  refine ⟨[([31, 3, 7, 1, 9, 0], [7, 7, 7, 9]), ([31, 0], []), ([31, 3, 7, 1, 9, 0], [7, 7, 7, 9])], _, _, ⟨?_, rfl, rfl⟩, rfl, ?_⟩
  · intro m hm
    simp only [List.mem_cons, List.not_mem_nil, or_false] at hm
    rcases hm with rfl | rfl | rfl
    · exact exMember
    · exact exEmptyMember
    · exact exMember
  · decide

/-- C47 fails if the underlying stream delivers the header of the file separately: the first read gives nothing. -/
theorem C47_short_read_violated : ∃ ms all contents sched, GzFile toyInflater ms all contents ∧ contents ≠ [] ∧
    (GzStream.new (m := streamIn) toyInflater ⟨all, sched⟩).reads [100] = [.ok (0, [])] :=
  ⟨_, _, _, [1], exGz, by decide, by decide⟩

/-- C47 fails for destinations of 4 GiB and more: the number returned is larger than that of the bytes written. -/
theorem C47_count_violated : ∃ ms all contents n, GzFile toyInflater ms all contents ∧
    (GzStream.new (m := streamIn) toyInflater ⟨all, []⟩).reads [n] = [.ok (4294967296 + 4, [7, 7, 7, 9])] :=
  ⟨_, _, _, 4294967296 + 100, exGz, by decide⟩

end Mlio
