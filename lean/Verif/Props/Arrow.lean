import Verif.Proofs.Arrow

/-!
# C81: Arrow files over data stores and records
-/

namespace Mlio

open Spec

/-- C81: for every data store that is not compressed, with the bytes `x`, and every sequence of calls without negative
arguments, the Arrow file answers as a file over `x`: reads give the bytes at the position, positioned reads those asked
for, and a closed file refuses everything.

Missing: negative sizes and positions, see below. -/
theorem C81_store_partial (z : Inflater) (w : World) (st : Store) (x : Bytes) (h : BytesBehind w st x)
    (hx : x.length < 2 ^ 63) (hc : st.compression = .none) (hw : WholeReads w st) (ks : List ArrowCall)
    (hv : ∀ k ∈ ks, ArrowCall.Valid k) :
    ∃ r, asArrowFile z w st = .ok r ∧ Answers true x 0 false ks (r.arrowCalls ks) := by
  obtain ⟨r, h1, h2⟩ := over_store (z := z) true h hx hc (fun _ => hw)
  exact ⟨r, h1, over_calls hx ks r 0 false h2 hv⟩

/-- C81, however the operating system delivers the file: the same, except that reads may be short. -/
theorem C81_short_partial (z : Inflater) (w : World) (st : Store) (x : Bytes) (h : BytesBehind w st x)
    (hx : x.length < 2 ^ 63) (hc : st.compression = .none) (ks : List ArrowCall) (hv : ∀ k ∈ ks, ArrowCall.Valid k) :
    ∃ r, asArrowFile z w st = .ok r ∧ Answers false x 0 false ks (r.arrowCalls ks) := by
  obtain ⟨r, h1, h2⟩ := over_store (z := z) false h hx hc (by simp)
  exact ⟨r, h1, over_calls hx ks r 0 false h2 hv⟩

/-- C81 for records: the file is over the payload, wherever in memory it is. -/
theorem C81_record_partial (block : Bytes) (payload : PSlice) (h : InBlock block payload) (ks : List ArrowCall)
    (hv : ∀ k ∈ ks, ArrowCall.Valid k) :
    Answers true (payload.bytes block) 0 false ks ((asArrowRecord block payload).arrowCalls ks) := by
  have hl := bytes_length h
  have h' := h
  obtain ⟨h1, h2, h3, h4⟩ := h'
  refine over_calls (by omega) ks _ 0 false ?_ hv
  exact ⟨payload, h, rfl, ⟨rfl, fun _ => rfl, fun _ => by simp [MemStream.new], by simp⟩⟩

/-- C81: what a positioned read gives does not depend on the calls before it, as long as the file is open: always the bytes
asked for that exist. -/
theorem C81_read_at_partial (z : Inflater) (w : World) (st : Store) (x : Bytes) (h : BytesBehind w st x)
    (hx : x.length < 2 ^ 63) (hc : st.compression = .none) (hw : WholeReads w st) (ks : List ArrowCall)
    (hv : ∀ k ∈ ks, ArrowCall.Valid k) (hcl : ArrowCall.close ∉ ks) (q n : Nat) (hq : q ≤ x.length) (hn : n < 2 ^ 63) :
    ∃ r, asArrowFile z w st = .ok r ∧
      (r.arrowCalls (ks ++ [.readAt q n])).getLast? = some (.bytes ((x.drop q).take n)) ∧
      (r.arrowCalls (ks ++ [.readBufferAt q n])).getLast? = some (.bytes ((x.drop q).take n)) := by
  obtain ⟨r, h1, h2⟩ := over_store (z := z) true h hx hc (fun _ => hw)
  have hb : (0 ≤ (q : Int) ∧ (q : Int) < 2 ^ 63) ∧ 0 ≤ (n : Int) ∧ (n : Int) < 2 ^ 63 := by omega
  have hvk : ∀ k', (k' = ArrowCall.readAt q n ∨ k' = .readBufferAt q n) → ∀ k ∈ ks ++ [k'], ArrowCall.Valid k := by
    intro k' hk' k hk
    rcases List.mem_append.1 hk with hk | hk
    · exact hv k hk
    · rw [List.mem_singleton.1 hk]
      rcases hk' with rfl | rfl <;> exact hb
  exact ⟨r, h1, answers_readAt (Or.inl rfl) hq ks 0 _ hcl (over_calls hx _ r 0 false h2 (hvk _ (Or.inl rfl))),
    answers_readAt (Or.inr rfl) hq ks 0 _ hcl (over_calls hx _ r 0 false h2 (hvk _ (Or.inr rfl)))⟩

/-- C81: reading until there is nothing more gives all the bytes, however large the reads are and however the operating
system delivers the file; at no point anything else. -/
theorem C81_read_all (z : Inflater) (w : World) (st : Store) (x : Bytes) (h : BytesBehind w st x)
    (hx : x.length < 2 ^ 63) (hc : st.compression = .none) (ns : List Nat) (hn : ∀ n ∈ ns, 0 < n ∧ n < 2 ^ 63) :
    ∃ (r : RawStream) (gots : List Bytes), asArrowFile z w st = .ok r ∧ r.arrowCalls (ns.map (fun n : Nat => ArrowCall.read n)) = gots.map ArrowOut.bytes ∧
      gots.flatten <+: x ∧ (x.length ≤ ns.length → gots.flatten = x) := by
  obtain ⟨r, h1, h2⟩ := over_store (z := z) false h hx hc (by simp)
  have h3 := over_calls hx (ns.map (fun n : Nat => ArrowCall.read n)) r 0 false h2 (by
    intro k hk
    obtain ⟨n, hn', rfl⟩ := List.mem_map.1 hk
    have := hn n hn'
    exact ⟨by omega, by omega⟩)
  obtain ⟨gots, e1, e2, e3⟩ := answers_reads ns 0 _ (fun n hn' => (hn n hn').1) h3
  exact ⟨r, gots, h1, e1, by simpa using e2, fun hl => by simpa using e3 (by simpa using hl)⟩

/-- C81: a data store that is compressed is refused, and so is one that cannot be opened: there is no file. -/
theorem C81_refused (z : Inflater) (w : World) (st : Store) :
    (∀ r, asArrowFile z w st = .ok r → st.compression = .none ∨ st.compression = .infer) ∧
    (∀ x, BytesBehind w st x → x.length < 2 ^ 63 → st.compression = .gzip → asArrowFile z w st = .err .invalidArgument) ∧
    (∀ x, BytesBehind w st x → x.length < 2 ^ 63 → (st.compression = .bzip2 ∨ st.compression = .zip) →
      asArrowFile z w st = .err .notSupported) := by
  refine ⟨?_, ?_, ?_⟩
  · intro r hr
    simp only [asArrowFile, Store.openRead] at hr
    cases hraw : st.raw w with
    | err e => simp [hraw] at hr
    | ub e => simp [hraw] at hr
    | ok s =>
      cases hc : st.compression <;> simp [hraw, hc, makeInflate] at hr ⊢
  · intro x hb hx hc
    obtain ⟨s, hs, _⟩ := behind_raw hb hx
    simp only [asArrowFile, Store.openRead, hs, hc, makeInflate]
  · intro x hb hx hc
    obtain ⟨s, hs, _⟩ := behind_raw hb hx
    rcases hc with hc | hc <;> simp only [asArrowFile, Store.openRead, hs, hc, makeInflate]

/-- A session on a record in the middle of a block, with all calls. -/
example : InBlock [9, 2, 3, 4, 9] ⟨1, 4⟩ ∧ PSlice.bytes [9, 2, 3, 4, 9] ⟨1, 4⟩ = [2, 3, 4] ∧
    (asArrowRecord [9, 2, 3, 4, 9] ⟨1, 4⟩).arrowCalls [.getSize, .read 2, .tell, .readBuffer 5, .readAt 1 1, .tell, .seek 7,
      .readBufferAt 0 2, .closed, .close, .closed, .tell, .readAt 0 1, .close] =
    [.num 3, .bytes [2, 3], .num 2, .bytes [4], .bytes [3], .num 2, .done, .bytes [2, 3], .flag false, .done, .flag true,
      .failed .invalid, .failed .invalid, .done] := by
  unfold InBlock
  decide +kernel

/-- Data stores that meet the hypotheses: a file, of which the operating system delivers one byte and then two at once, and an
object. -/
def arrowWorld : World where
  files p := if p = [102] then some ([1, 2, 3, 4, 5], [1, 2]) else if p = [103] then some ([1, 2, 3, 4, 5], []) else none
  objects b k v := if b = [98] ∧ k = [107] ∧ v = [] then some [6, 7, 8] else none

example : BytesBehind arrowWorld (.file [102] false .none) [1, 2, 3, 4, 5] ∧
    BytesBehind arrowWorld (.file [103] false .none) [1, 2, 3, 4, 5] ∧ WholeReads arrowWorld (.file [103] false .none) ∧
    BytesBehind arrowWorld (.object [115, 51, 58, 47, 47, 98, 47, 107] [] .none) [6, 7, 8] := by
  refine ⟨⟨[1, 2], rfl⟩, ⟨[], rfl⟩, Or.inr ?_, ⟨[98], [107], ⟨rfl, by simp, by decide, by simp⟩, rfl⟩⟩
  intro x sched h
  simp [arrowWorld] at h
  exact h.2

example (z : Inflater) : (match asArrowFile z arrowWorld (.object [115, 51, 58, 47, 47, 98, 47, 107] [] .none) with
    | .ok r => r.arrowCalls [.read 2, .readAt 1 9, .seek 4, .tell, .readAt 9 1, .read 1]
    | _ => []) = [.bytes [6, 7], .bytes [7, 8], .failed .unknownError, .num 3, .failed .unknownError, .bytes []] := rfl

/-! ## Deviations -/

/-- A positioned read of a file may give fewer bytes than asked for although they are there, if the operating system delivers
fewer at once (as Linux always does above 2 GiB); Arrow takes that for the end of the file. -/
theorem C81_short_read_violated (z : Inflater) : ∃ r, asArrowFile z arrowWorld (.file [102] false .none) = .ok r ∧
    r.arrowCalls [.readAt 0 4] = [.bytes [1]] ∧ ¬ Answers true [1, 2, 3, 4, 5] 0 false [.readAt 0 4] [.bytes [1]] := by
  refine ⟨_, rfl, rfl, ?_⟩
  intro h
  have := answers_readAt (k := .readAt (0 : Nat) (4 : Nat)) (Or.inl rfl) (by simp) [] 0 _ (by simp) h
  simp at this

/-- A seek to a negative position of a record is reported as done, and the next read is from in front of the record: here it
gives away what the block holds there. -/
theorem C81_negative_seek_violated :
    (asArrowRecord [9, 2, 3, 4, 9] ⟨1, 4⟩).arrowCalls [.seek (-1), .read 2] = [.done, .bytes [9, 2]] ∧
    (asArrowRecord [2, 3, 4] ⟨0, 3⟩).arrowCalls [.seek (-1), .read 2] = [.done, .ub "read outside of the block"] := by
  decide +kernel

/-- The same after a read of a negative number of bytes, although that fails. -/
theorem C81_negative_read_violated :
    (asArrowRecord [2, 3, 4] ⟨0, 3⟩).arrowCalls [.readBuffer (-1), .read 2] =
      [.failed .invalid, .ub "read outside of the block"] := by
  decide +kernel

/-- A seek to any negative position of a file that is not in memory is reported as done, and the file is at its end. -/
theorem C81_negative_seek_file_violated (z : Inflater) (w : World) (path : Bytes) (x : Bytes) (sched : List Nat)
    (h : w.files path = some (x, sched)) (hx : x.length < 2 ^ 63) (p : Int) (hp : p < 0) (hp' : -2 ^ 63 ≤ p) :
    ∃ r, asArrowFile z w (.file path false .none) = .ok r ∧ r.arrowCalls [.seek p, .tell] = [.done, .num x.length] := by
  refine ⟨_, by simp only [asArrowFile, Store.openRead, Store.raw, h, Bool.false_eq_true, if_false, Store.compression,
    makeInflate]; rfl, ?_⟩
  have hbig : x.length ≤ asSizeT p := by unfold asSizeT; omega
  have e : (FileStream.new sched).call x (.seek (asSizeT p)) =
      (.unit (.ok ()), { FileStream.new sched with cached := x.length, offset := x.length }) := by
    simp only [FileStream.call, FileStream.seek, FileStream.size, FileStream.new, Bool.not_true, Bool.false_eq_true,
      if_false, if_true, Nat.min_eq_right hbig]
  simp only [RawStream.arrowCalls, RawStream.arrowCall, RawStream.arrowSeek, RawStream.closed, FileStream.new,
    Bool.not_true, Bool.false_eq_true, if_false, RawStream.call] at e ⊢
  rw [e]
  simp only [Bool.not_true, Bool.false_eq_true, if_false, FileStream.call, FileStream.position, arrowBoundary,
    asSsize_small hx]

end Mlio
