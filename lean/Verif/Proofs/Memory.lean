import Verif.Spec.Memory
import Verif.Proofs.StreamReader

namespace Mlio
open Spec

theorem asSsize_small {n : Nat} (h : n < 2 ^ 63) : asSsize n = n := by
  unfold asSsize W64
  simp only
  rw [Nat.mod_eq_of_lt (by omega), if_pos h]

theorem asSsize_large {n : Nat} (h : 2 ^ 63 ≤ n) (h' : n < 2 ^ 64) : asSsize n = (n : Int) - 2 ^ 64 := by
  unfold asSsize W64
  simp only
  rw [Nat.mod_eq_of_lt h', if_neg (by omega)]
  rfl

theorem bytes_length {b : Bytes} {s : PSlice} (h : InBlock b s) : ((s.bytes b).length : Int) = s.fin - s.beg := by
  obtain ⟨h1, h2, h3, h4⟩ := h
  simp only [PSlice.bytes, List.length_take, List.length_drop]
  omega

theorem bytes_part {b : Bytes} {s : PSlice} (h : InBlock b s) (i n : Nat) (hin : i + n ≤ (s.bytes b).length) :
    InBlock b ⟨s.beg + i, s.beg + i + n⟩ ∧
      PSlice.bytes b ⟨s.beg + i, s.beg + i + n⟩ = ((s.bytes b).drop i).take n := by
  have hl := bytes_length h
  obtain ⟨h1, h2, h3, h4⟩ := h
  refine ⟨⟨by simp only; omega, by simp only; omega, by simp only; omega, h4⟩, ?_⟩
  simp only [PSlice.bytes, List.drop_take, List.drop_drop, List.take_take]
  have e1 : (s.beg + (i : Int)).toNat = s.beg.toNat + i := by omega
  have e2 : (s.beg + (i : Int) + (n : Int) - (s.beg + i)).toNat = n := by omega
  have e3 : min n ((s.fin - s.beg).toNat - i) = n := by omega
  rw [e1, e2, e3]

/-- The range check, for pointers computed from offsets in the slice. -/
theorem range_part {b : Bytes} {s : PSlice} (h : InBlock b s) (i n : Nat) (first last : Int)
    (hf : first = s.beg + i) (hla : last = s.beg + i + n) : IsPart b (s.bytes b) i n (s.range first last) := by
  have hl := bytes_length h
  have hh := h
  obtain ⟨h1, h2, h3, h4⟩ := h
  subst hf hla
  unfold PSlice.range
  rw [if_neg (by omega)]
  split
  · exact ⟨by omega, rfl⟩
  · exact ⟨by omega, bytes_part hh i n (by omega)⟩

/-- Pointers outside are rejected. -/
theorem range_reject {b : Bytes} {s : PSlice} (i n : Nat) (first last : Int) (hn : (s.bytes b).length < i + n)
    (hbad : first > last ∨ first < s.beg ∨ last > s.fin) : IsPart b (s.bytes b) i n (s.range first last) := by
  unfold PSlice.range
  split
  · exact ⟨hn, rfl⟩
  · rw [if_pos (by omega)]; exact ⟨hn, rfl⟩

theorem subslice_part {b : Bytes} {s : PSlice} (h : InBlock b s) (offset count : Nat) (ho : offset < 2 ^ 64)
    (hc : count < 2 ^ 64) : IsPart b (s.bytes b) offset count (s.subslice offset count) := by
  have hl := bytes_length h
  have hh := h
  obtain ⟨h1, h2, h3, h4⟩ := h
  unfold PSlice.subslice
  by_cases h63 : offset < 2 ^ 63
  · rw [asSsize_small h63]
    by_cases hw : offset + count < 2 ^ 64
    · rw [show (offset + count) % W64 = offset + count from Nat.mod_eq_of_lt hw]
      by_cases hs : offset + count < 2 ^ 63
      · rw [asSsize_small hs]
        exact range_part hh _ _ _ _ rfl (by omega)
      · rw [asSsize_large (by omega) hw]
        exact range_reject _ _ _ _ (by omega) (by omega)
    · have hm : (offset + count) % W64 = offset + count - 2 ^ 64 := by
        unfold W64; omega
      rw [hm, asSsize_small (by omega)]
      exact range_reject _ _ _ _ (by omega) (by omega)
  · rw [asSsize_large (by omega) ho]
    exact range_reject _ _ _ _ (by omega) (by omega)

theorem subslice1_part {b : Bytes} {s : PSlice} (h : InBlock b s) (offset : Nat) (ho : offset < 2 ^ 64) :
    IsPart b (s.bytes b) offset ((s.bytes b).length - offset) (s.subslice1 offset) := by
  have hl := bytes_length h
  have hh := h
  obtain ⟨h1, h2, h3, h4⟩ := h
  unfold PSlice.subslice1
  by_cases h63 : offset < 2 ^ 63
  · rw [asSsize_small h63]
    by_cases hle : offset ≤ (s.bytes b).length
    · exact range_part hh _ _ _ _ rfl (by omega)
    · exact range_reject _ _ _ _ (by omega) (by omega)
  · rw [asSsize_large (by omega) ho]
    exact range_reject _ _ _ _ (by omega) (by omega)

theorem first_part {b : Bytes} {s : PSlice} (h : InBlock b s) (count : Nat) (hc : count < 2 ^ 64) :
    IsPart b (s.bytes b) 0 count (s.first count) := by
  have hl := bytes_length h
  have hh := h
  obtain ⟨h1, h2, h3, h4⟩ := h
  unfold PSlice.first
  by_cases h63 : count < 2 ^ 63
  · rw [asSsize_small h63]
    exact range_part hh _ _ _ _ (by omega) (by omega)
  · rw [asSsize_large (by omega) hc]
    exact range_reject _ _ _ _ (by omega) (by omega)

theorem last_part {b : Bytes} {s : PSlice} (h : InBlock b s) (count : Nat) (hc : count < 2 ^ 64) :
    IsPart b (s.bytes b) ((s.bytes b).length - count) count (s.last count) := by
  have hl := bytes_length h
  have hh := h
  obtain ⟨h1, h2, h3, h4⟩ := h
  unfold PSlice.last
  by_cases h63 : count < 2 ^ 63
  · rw [asSsize_small h63]
    by_cases hle : count ≤ (s.bytes b).length
    · exact range_part hh _ _ _ _ (by omega) (by omega)
    · exact range_reject _ _ _ _ (by omega) (by omega)
  · rw [asSsize_large (by omega) hc]
    exact range_reject _ _ _ _ (by omega) (by omega)

/-! ## Memory streams -/

/-- The stream is the cursor `c` over the bytes of the slice `s`. -/
structure MemRel (b : Bytes) (s : PSlice) (m : MemStream) (c : Cursor) : Prop where
  closed : m.closed = c.closed
  src : m.closed = false → m.src = s
  pos : m.closed = false → m.pos = s.beg + c.pos
  le : c.pos ≤ (s.bytes b).length

theorem advance_pos {b : Bytes} {s : PSlice} (h : InBlock b s) (m : MemStream) (p n : Nat) (hs : m.src = s)
    (hp : m.pos = s.beg + p) (hn : n < 2 ^ 63) :
    m.advance n = { m with pos := s.beg + (min (p + n) (s.bytes b).length : Nat) } := by
  have hl := bytes_length h
  obtain ⟨h1, h2, h3, h4⟩ := h
  unfold MemStream.advance
  rw [asSsize_small hn, hs, hp]
  congr 1
  omega

theorem mem_read {b : Bytes} {s : PSlice} (h : InBlock b s) (p n : Nat) (hp : p ≤ (s.bytes b).length) :
    readRange b (s.beg + p) (s.beg + (min (p + n) (s.bytes b).length : Nat)) = .ok (((s.bytes b).drop p).take n) ∧
    ∃ t, s.range (s.beg + p) (s.beg + (min (p + n) (s.bytes b).length : Nat)) = .ok t ∧
      t.bytes b = ((s.bytes b).drop p).take n := by
  have hl := bytes_length h
  have hh := h
  obtain ⟨h1, h2, h3, h4⟩ := h
  generalize hk : min (p + n) (s.bytes b).length - p = k
  have hq : min (p + n) (s.bytes b).length = p + k := by omega
  have ht : ((s.bytes b).drop p).take n = ((s.bytes b).drop p).take k := by
    apply List.ext_getElem?
    intro i
    rw [List.getElem?_take, List.getElem?_take]
    by_cases h1 : i < n <;> by_cases h2 : i < k <;> simp [h1, h2, List.getElem?_drop]
    · omega
    · omega
  have hb := bytes_part hh p k (by omega)
  rw [hq, ht]
  have e : s.beg + ((p + k : Nat) : Int) = s.beg + p + k := by omega
  rw [e]
  refine ⟨?_, ⟨s.beg + p, s.beg + p + k⟩, ?_, hb.2⟩
  · unfold readRange
    rw [if_neg (by omega), if_neg (by omega), ← hb.2]
    rfl
  · unfold PSlice.range
    rw [if_neg (by omega), if_neg (by omega)]

theorem memRel_call {b : Bytes} {s : PSlice} (h : InBlock b s) (m : MemStream) (c : Cursor) (k : StreamCall)
    (hr : MemRel b s m c) (hk : StreamCall.Small k) :
    (m.call b k).1 = (c.call (s.bytes b) k).1 ∧ MemRel b s (m.call b k).2 (c.call (s.bytes b) k).2 := by
  obtain ⟨msrc, mpos, mcl⟩ := m
  obtain ⟨cpos, ccl⟩ := c
  obtain ⟨r1, r2, r3, r4⟩ := hr
  simp only at r1 r2 r3 r4
  subst r1
  have hl := bytes_length h
  obtain ⟨h1, h2, h3, h4⟩ := id h
  cases mcl with
  | true =>
    cases k <;>
      simp [MemStream.call, MemStream.readInto, MemStream.read, MemStream.seek, MemStream.size, MemStream.position,
        MemStream.close, Cursor.call] <;>
      exact ⟨by simp, by simp, by simp, r4⟩
  | false =>
    have r2 := r2 rfl
    have r3 := r3 rfl
    subst r2 r3
    cases k with
    | readInto n =>
      simp only [StreamCall.Small] at hk
      simp only [MemStream.call, MemStream.readInto, Cursor.call, Bool.false_eq_true, if_false]
      by_cases hn : n = 0
      · subst hn
        refine ⟨by simp, ⟨rfl, fun _ => rfl, fun _ => ?_, by simp only; omega⟩⟩
        simp only [if_true]
        omega
      · rw [if_neg hn, advance_pos h _ cpos n rfl rfl hk]
        exact ⟨by simp only [(mem_read h cpos n r4).1], ⟨rfl, fun _ => rfl, fun _ => rfl, by simp only; omega⟩⟩
    | read n =>
      simp only [StreamCall.Small] at hk
      simp only [MemStream.call, MemStream.read, Cursor.call, Bool.false_eq_true, if_false]
      by_cases hn : n = 0
      · subst hn
        refine ⟨by simp, ⟨rfl, fun _ => rfl, fun _ => ?_, by simp only; omega⟩⟩
        simp only [if_true]
        omega
      · rw [if_neg hn, advance_pos h _ cpos n rfl rfl hk]
        obtain ⟨t, ht, hb⟩ := (mem_read h cpos n r4).2
        simp only [ht, hb]
        exact ⟨trivial, ⟨rfl, fun _ => rfl, fun _ => rfl, by simp only; omega⟩⟩
    | seek n =>
      simp only [StreamCall.Small] at hk
      simp only [MemStream.call, MemStream.seek, Cursor.call, Bool.false_eq_true, if_false]
      rw [advance_pos h _ 0 n rfl (by simp) hk]
      refine ⟨by trivial, ⟨rfl, fun _ => rfl, fun _ => ?_, by simp only; omega⟩⟩
      simp
    | size =>
      simp only [MemStream.call, MemStream.size, Cursor.call, Bool.false_eq_true, if_false]
      refine ⟨?_, ⟨rfl, fun _ => rfl, fun _ => rfl, r4⟩⟩
      congr 2
      omega
    | position =>
      simp only [MemStream.call, MemStream.position, Cursor.call, Bool.false_eq_true, if_false]
      refine ⟨?_, ⟨rfl, fun _ => rfl, fun _ => rfl, r4⟩⟩
      congr 2
      omega
    | close =>
      exact ⟨rfl, ⟨rfl, by simp [MemStream.call, MemStream.close], by simp [MemStream.call, MemStream.close], r4⟩⟩

theorem memRel_calls {b : Bytes} {s : PSlice} (h : InBlock b s) : ∀ (ks : List StreamCall) (m : MemStream) (c : Cursor),
    MemRel b s m c → (∀ k ∈ ks, StreamCall.Small k) → m.calls b ks = c.calls (s.bytes b) ks
  | [], _, _, _, _ => rfl
  | k :: ks, m, c, hr, hk => by
    obtain ⟨h1, h2⟩ := memRel_call h m c k hr (hk k (by simp))
    unfold MemStream.calls Cursor.calls
    rw [h1, memRel_calls h ks _ _ h2 (fun k' hk' => hk k' (by simp [hk']))]

/-! ## File streams -/

/-- The file stream is the cursor `c`. -/
structure FileRel (x : Bytes) (f : FileStream) (c : Cursor) : Prop where
  open_ : f.open_ = !c.closed
  pos : f.offset = c.pos
  le : c.pos ≤ x.length
  cached : f.cached = 0 ∨ f.cached = x.length

theorem file_size {x : Bytes} {f : FileStream} (h : f.cached = 0 ∨ f.cached = x.length) :
    (if f.cached = 0 then x.length else f.cached) = x.length := by
  split <;> omega

theorem fileRel_readInto {x : Bytes} (n p : Nat) (f : FileStream) (hr : FileRel x f ⟨p, false⟩) :
    ∃ m, m ≤ n ∧ (0 < m ∨ n = 0 ∨ x.length ≤ p) ∧ (f.readInto x n).1 = .ok ((x.drop p).take m) ∧
      FileRel x (f.readInto x n).2 ⟨min (p + m) x.length, false⟩ := by
  obtain ⟨r1, r2, r3, r4⟩ := hr
  simp only at r1 r2 r3
  unfold FileStream.readInto
  rw [r1]
  simp only [Bool.not_false, Bool.not_true, Bool.false_eq_true, if_false]
  by_cases hn : n = 0
  · rw [if_pos hn]
    exact ⟨0, by omega, by omega, by simp, ⟨by simp [r1], by simp only; omega, by simp only; omega, r4⟩⟩
  · rw [if_neg hn]
    have hcap : f.cap n ≤ n ∧ 0 < f.cap n := by
      unfold FileStream.cap
      split <;> omega
    refine ⟨f.cap n, hcap.1, Or.inl hcap.2, ?_, ?_⟩
    · simp only [FileStream.sysRead, r2]
    · refine ⟨by simp [FileStream.sysRead, r1], ?_, by simp only; omega, r4⟩
      simp only [FileStream.sysRead, r2, List.length_take, List.length_drop]
      omega

theorem fileRel_calls (x : Bytes) : ∀ (ks : List StreamCall) (f : FileStream) (c : Cursor), FileRel x f c →
    ShortCalls x c ks (f.calls x ks)
  | [], _, c, _ => .nil c
  | k :: ks, f, c, hr => by
    have hr0 := hr
    obtain ⟨r1, r2, r3, r4⟩ := hr
    obtain ⟨p, cl⟩ := c
    simp only at r1 r2 r3
    have hsz := file_size r4
    unfold FileStream.calls
    cases cl with
    | true =>
      simp only [Bool.not_true] at r1
      have key : (f.call x k).1 = (Cursor.call x ⟨p, true⟩ k).1 ∧
          FileRel x (f.call x k).2 (Cursor.call x ⟨p, true⟩ k).2 := by
        cases k <;>
          simp only [FileStream.call, FileStream.readInto, FileStream.seek, FileStream.size, FileStream.position,
            Cursor.call, r1, Bool.not_false, if_true] <;>
          exact ⟨by trivial, ⟨by simp [r1], r2, r3, r4⟩⟩
      rw [key.1]
      exact .exact _ _ _ _ (fileRel_calls x ks _ _ key.2)
    | false =>
      simp only [Bool.not_false] at r1
      cases k with
      | readInto n =>
        obtain ⟨m, h1, h2, h3, h4⟩ := fileRel_readInto n p f hr0
        simp only [FileStream.call, h3]
        exact .short p n m _ _ _ (Or.inl rfl) h1 h2 (fileRel_calls x ks _ _ h4)
      | read n =>
        obtain ⟨m, h1, h2, h3, h4⟩ := fileRel_readInto n p f hr0
        simp only [FileStream.call, h3]
        exact .short p n m _ _ _ (Or.inr rfl) h1 h2 (fileRel_calls x ks _ _ h4)
      | seek n =>
        have e : f.call x (.seek n) = (.unit (.ok ()), { f with cached := x.length, offset := min n x.length }) := by
          simp only [FileStream.call, FileStream.seek, FileStream.size, r1, Bool.not_true, Bool.false_eq_true, if_false,
            hsz]
        rw [e]
        exact .exact ⟨p, false⟩ (.seek n) _ _ (fileRel_calls x ks _ _
          ⟨by simp [Cursor.call, r1], rfl, by simp only [Cursor.call]; omega, Or.inr rfl⟩)
      | size =>
        have e : f.call x .size = (.num (.ok x.length), { f with cached := x.length }) := by
          simp only [FileStream.call, FileStream.size, r1, Bool.not_true, Bool.false_eq_true, if_false, hsz]
        rw [e]
        exact .exact ⟨p, false⟩ .size _ _ (fileRel_calls x ks _ _
          ⟨by simp [Cursor.call, r1], r2, r3, Or.inr rfl⟩)
      | position =>
        have e : f.call x .position = (.num (.ok p), f) := by
          simp only [FileStream.call, FileStream.position, r1, Bool.not_true, Bool.false_eq_true, if_false, r2]
        rw [e]
        exact .exact ⟨p, false⟩ .position _ _ (fileRel_calls x ks _ _ hr0)
      | close =>
        exact .exact ⟨p, false⟩ .close _ _ (fileRel_calls x ks _ _ ⟨rfl, r2, r3, r4⟩)

/-! ## Resizing -/

theorem reallocBytes_spec (junk : Nat → UInt8) (old : Bytes) (size : Nat) :
    (reallocBytes junk old size).length = size ∧
      (reallocBytes junk old size).take (min old.length size) = old.take size := by
  unfold reallocBytes
  constructor
  · simp only [List.length_append, List.length_take, List.length_map, List.length_range']
    omega
  · rw [List.take_append_of_le_length (by simp only [List.length_take]; omega), List.take_take]
    by_cases h : old.length ≤ size
    · rw [List.take_of_length_le (by omega), List.take_of_length_le h]
    · congr 1; omega

theorem ftruncateBytes_spec (old : Bytes) (size : Nat) :
    (ftruncateBytes old size).length = size ∧
      (ftruncateBytes old size).take (min old.length size) = old.take size := by
  unfold ftruncateBytes
  constructor
  · simp only [List.length_append, List.length_take, List.length_replicate]
    omega
  · rw [List.take_append_of_le_length (by simp only [List.length_take]; omega), List.take_take]
    by_cases h : old.length ≤ size
    · rw [List.take_of_length_le (by omega), List.take_of_length_le h]
    · congr 1; omega

/-! ## Loading -/

theorem readStreamLoop_spec (seekable : Bool) (total : Nat) : ∀ (fuel : Nat) (s : Stream) (filled : Bytes)
    (size : Option Nat),
    (match size with
      | some n => filled.length = n ∧ 0 < n
      | none => filled = [] ∧ (seekable = true → 0 < total)) →
    s.data.length + 1 < fuel →
    readStreamLoop seekable total fuel s filled size = .ok (filled ++ s.data)
  | 0, _, _, _, _, hf => by omega
  | fuel + 1, s, filled, size, hs, hf => by
    generalize hsz : nextBlockSize seekable total size = size'
    have hpos : filled.length < size' := by
      unfold nextBlockSize at hsz
      cases size with
      | some n => simp only at hs hsz; omega
      | none =>
        simp only at hs hsz
        rw [hs.1]
        simp only [List.length_nil]
        by_cases hk : seekable = true
        · rw [if_pos hk] at hsz; have := hs.2 hk; omega
        · rw [if_neg hk] at hsz; omega
    unfold readStreamLoop
    simp only [hsz]
    obtain ⟨got, s', e, h1, h2, h3, h4, h5⟩ :=
      fillLoop_spec (size' - filled.length) s (size' - filled.length) (Nat.le_refl _)
    simp only [h1]
    cases e with
    | true =>
      simp only [if_true]
      have := h4 rfl
      rw [this] at h2
      simp only [List.append_nil] at h2
      rw [h2]
    | false =>
      simp only [Bool.false_eq_true, if_false]
      have hg := h5 rfl
      have hlen : s.data.length = got.length + s'.data.length := by rw [← h2]; simp
      rw [readStreamLoop_spec seekable total fuel s' (filled ++ got) (some size')
        ⟨by simp only [List.length_append]; omega, by omega⟩ (by omega), List.append_assoc, h2]

theorem readStreamLoop_empty (total : Nat) (h : total = 0) : ∀ (fuel : Nat) (s : Stream) (size : Option Nat),
    (size = none ∨ size = some 0) → readStreamLoop true total fuel s [] size = .err .diverges
  | 0, _, _, _ => rfl
  | fuel + 1, s, size, hs => by
    subst h
    unfold readStreamLoop
    rcases hs with rfl | rfl
    · simp only [nextBlockSize, if_true]
      exact readStreamLoop_empty 0 rfl fuel s (some 0) (Or.inr rfl)
    · simp only [nextBlockSize]
      exact readStreamLoop_empty 0 rfl fuel s (some 0) (Or.inr rfl)

end Mlio
