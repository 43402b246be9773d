import Verif.Spec.Arrow
import Verif.Proofs.Memory
import Verif.Proofs.Stores
import Verif.Proofs.DataStore

/-!
# Lemmas about Arrow files
-/

namespace Mlio

open Spec

/-- The stream is over the bytes `x`, at position `p`. -/
def OverBytes (whole : Bool) (x : Bytes) : RawStream → Nat → Bool → Prop
  | .memory b m, p, c => ∃ s, InBlock b s ∧ s.bytes b = x ∧ MemRel b s m ⟨p, c⟩
  | .file b f, p, c => b = x ∧ FileRel x f ⟨p, c⟩ ∧ (whole = true → f.sched = [])
  | .object b s, p, c => b = x ∧ s = ⟨c, x.length, p⟩ ∧ p ≤ x.length

theorem asSizeT_nat {n : Nat} (h : n < 2 ^ 63) : asSizeT n = n := by
  unfold asSizeT
  omega

theorem over_closed {whole : Bool} {x : Bytes} {r : RawStream} {p : Nat} {c : Bool} (h : OverBytes whole x r p c) :
    r.closed = c := by
  cases r with
  | memory b m => obtain ⟨s, _, _, h3⟩ := h; exact h3.closed
  | file b f => obtain ⟨_, h2, _⟩ := h; simp [RawStream.closed, h2.open_]
  | object b s => obtain ⟨_, h2, _⟩ := h; rw [h2]; rfl

theorem over_le {whole : Bool} {x : Bytes} {r : RawStream} {p : Nat} {c : Bool} (h : OverBytes whole x r p c) :
    p ≤ x.length := by
  cases r with
  | memory b m => obtain ⟨s, _, h2, h3⟩ := h; have := h3.le; rw [h2] at this; exact this
  | file b f => obtain ⟨_, h2, _⟩ := h; exact h2.le
  | object b s => exact h.2.2

theorem part_take {whole : Bool} {x : Bytes} {p n m : Nat} (h1 : m ≤ n) (h2 : 0 < m ∨ n = 0 ∨ x.length ≤ p)
    (h3 : whole = true → m = n) : Part whole x p n ((x.drop p).take m) := by
  refine ⟨?_, fun h => by rw [h3 h], ?_⟩
  · rw [show m = min m n by omega, ← List.take_take]; exact List.take_prefix _ _
  · intro hne he
    apply hne
    have := congrArg List.length he
    simp only [List.length_take, List.length_drop, List.length_nil] at this
    apply List.eq_nil_of_length_eq_zero
    simp only [List.length_take, List.length_drop]
    omega

theorem min_take (x : Bytes) (p m : Nat) (h : p ≤ x.length) :
    min (p + m) x.length = p + ((x.drop p).take m).length := by
  simp only [List.length_take, List.length_drop]; omega

/-- Reads give the next bytes. -/
theorem over_read {whole : Bool} {x : Bytes} {r : RawStream} {p n : Nat} (h : OverBytes whole x r p false) (hn : n < 2 ^ 63)
    (k : StreamCall) (hk : k = .readInto n ∨ k = .read n) :
    ∃ got, Part whole x p n got ∧ (r.call k).1 = .bytes (.ok got) ∧
      OverBytes whole x (r.call k).2 (p + got.length) false := by
  have hp := over_le h
  cases r with
  | memory b m =>
    obtain ⟨s, h1, h2, h3⟩ := h
    have hs : StreamCall.Small k := by rcases hk with rfl | rfl <;> exact hn
    obtain ⟨e1, e2⟩ := memRel_call h1 m ⟨p, false⟩ k h3 hs
    refine ⟨(x.drop p).take n, part_take (Nat.le_refl _) (by omega) (fun _ => rfl), ?_, s, h1, h2, ?_⟩
    · simp only [RawStream.call, e1]
      rcases hk with rfl | rfl <;> simp [Cursor.call, h2]
    · rw [← min_take x p n hp]
      rcases hk with rfl | rfl <;> simpa [Cursor.call, h2] using e2
  | file b f =>
    obtain ⟨rfl, h2, h3⟩ := h
    have key : ∃ got, Part whole b p n got ∧ (f.readInto b n).1 = .ok got ∧
        FileRel b (f.readInto b n).2 ⟨p + got.length, false⟩ ∧ (whole = true → (f.readInto b n).2.sched = []) := by
      have ho : f.open_ = true := h2.open_
      have hpos : f.offset = p := h2.pos
      have hs : whole = true → (f.readInto b n).2.sched = [] := by
        intro hw
        simp only [FileStream.readInto, ho, Bool.not_true, Bool.false_eq_true, if_false]
        split
        · exact h3 hw
        · simp [FileStream.sysRead, h3 hw]
      by_cases hw : whole = true
      · refine ⟨(b.drop p).take n, part_take (Nat.le_refl _) (by omega) (fun _ => rfl), ?_, ?_, hs⟩
        · simp only [FileStream.readInto, ho, Bool.not_true, Bool.false_eq_true, if_false]
          split
          · rename_i h0; simp [h0]
          · simp [FileStream.sysRead, FileStream.cap, h3 hw, hpos]
        · obtain ⟨_, r2, r3, r4⟩ := h2
          simp only [FileStream.readInto, ho, Bool.not_true, Bool.false_eq_true, if_false]
          split
          · rename_i h0; exact ⟨by simp [ho], by simp [h0, hpos], by simp [h0]; exact r3, r4⟩
          · refine ⟨by simp [FileStream.sysRead, ho], ?_, ?_, r4⟩
            · simp [FileStream.sysRead, FileStream.cap, h3 hw, hpos]
            · simp only [List.length_take, List.length_drop]; omega
      · obtain ⟨m, h4, h5, h6, h7⟩ := fileRel_readInto n p f h2
        exact ⟨_, part_take h4 h5 (fun h => absurd h hw), h6, by rw [← min_take b p m hp]; exact h7, hs⟩
    obtain ⟨got, k1, k2, k3, k4⟩ := key
    refine ⟨got, k1, ?_, ?_⟩
    · rcases hk with rfl | rfl <;> simp only [RawStream.call, FileStream.call, k2]
    · rcases hk with rfl | rfl <;> exact ⟨rfl, k3, k4⟩
  | object b s =>
    obtain ⟨rfl, h2, h3⟩ := h
    refine ⟨(b.drop p).take n, part_take (Nat.le_refl _) (by omega) (fun _ => rfl), ?_, ?_⟩
    · rcases hk with rfl | rfl <;> simp only [RawStream.call, S3Stream.call, h2, s3_readInto b p n h3]
    · rw [← min_take b p n hp]
      rcases hk with rfl | rfl <;>
        exact ⟨rfl, by simp only [S3Stream.call, h2, s3_readInto b p n h3], by omega⟩

/-- Seeking: to the position; behind the end to the end, or not at all. -/
theorem over_seek {whole : Bool} {x : Bytes} {r : RawStream} {p q : Nat} (h : OverBytes whole x r p false) (hq : q < 2 ^ 63) :
    ((r.call (.seek q)).1 = .unit (.ok ()) ∧ OverBytes whole x (r.call (.seek q)).2 (min q x.length) false) ∨
    (x.length < q ∧ (r.call (.seek q)).1 = .unit (.err .systemError) ∧
      OverBytes whole x (r.call (.seek q)).2 p false) := by
  cases r with
  | memory b m =>
    obtain ⟨s, h1, h2, h3⟩ := h
    obtain ⟨e1, e2⟩ := memRel_call h1 m ⟨p, false⟩ (.seek q) h3 hq
    exact Or.inl ⟨by simp only [RawStream.call, e1, Cursor.call], s, h1, h2, by simpa [Cursor.call, h2] using e2⟩
  | file b f =>
    obtain ⟨rfl, h2, h3⟩ := h
    have ho : f.open_ = true := h2.open_
    have e : f.call b (.seek q) = (.unit (.ok ()), { f with cached := b.length, offset := min q b.length }) := by
      simp only [FileStream.call, FileStream.seek, FileStream.size, ho, Bool.not_true, Bool.false_eq_true, if_false,
        file_size h2.cached]
    refine Or.inl ⟨by simp only [RawStream.call, e], rfl, ?_, ?_⟩
    · simp only [e]; exact ⟨by simp [ho], rfl, by simp only; omega, Or.inr rfl⟩
    · simp only [e]; exact h3
  | object b s =>
    obtain ⟨rfl, h2, h3⟩ := h
    by_cases hle : q ≤ b.length
    · left
      simp only [RawStream.call, S3Stream.call, S3Stream.seek, h2, Bool.false_eq_true, if_false,
        if_neg (show ¬ q > b.length by omega)]
      exact ⟨trivial, rfl, by rw [Nat.min_eq_left hle], by omega⟩
    · right
      simp only [RawStream.call, S3Stream.call, S3Stream.seek, h2, Bool.false_eq_true, if_false,
        if_pos (show q > b.length by omega)]
      exact ⟨by omega, trivial, rfl, rfl, h3⟩

/-- The size and the position. -/
theorem over_num {whole : Bool} {x : Bytes} {r : RawStream} {p : Nat} (h : OverBytes whole x r p false) :
    ((r.call .size).1 = .num (.ok x.length) ∧ OverBytes whole x (r.call .size).2 p false) ∧
    ((r.call .position).1 = .num (.ok p) ∧ OverBytes whole x (r.call .position).2 p false) := by
  cases r with
  | memory b m =>
    obtain ⟨s, h1, h2, h3⟩ := h
    obtain ⟨e1, e2⟩ := memRel_call h1 m ⟨p, false⟩ .size h3 trivial
    obtain ⟨e3, e4⟩ := memRel_call h1 m ⟨p, false⟩ .position h3 trivial
    exact ⟨⟨by simp only [RawStream.call, e1, Cursor.call, h2], s, h1, h2, e2⟩,
      ⟨by simp only [RawStream.call, e3, Cursor.call], s, h1, h2, e4⟩⟩
  | file b f =>
    obtain ⟨rfl, h2, h3⟩ := h
    have ho : f.open_ = true := h2.open_
    have e : f.call b .size = (.num (.ok b.length), { f with cached := b.length }) := by
      simp only [FileStream.call, FileStream.size, ho, Bool.not_true, Bool.false_eq_true, if_false,
        file_size h2.cached]
    refine ⟨⟨by simp only [RawStream.call, e], rfl, ?_, ?_⟩, ⟨?_, rfl, h2, h3⟩⟩
    · simp only [e]; exact ⟨by simp [ho], h2.pos, h2.le, Or.inr rfl⟩
    · simp only [e]; exact h3
    · simp [RawStream.call, FileStream.call, FileStream.position, ho, h2.pos]
  | object b s =>
    obtain ⟨rfl, h2, h3⟩ := h
    subst h2
    exact ⟨⟨rfl, rfl, rfl, h3⟩, ⟨rfl, rfl, rfl, h3⟩⟩

theorem over_close {whole : Bool} {x : Bytes} {r : RawStream} {p : Nat} {c : Bool} (h : OverBytes whole x r p c) :
    OverBytes whole x (r.call .close).2 p true := by
  cases r with
  | memory b m =>
    obtain ⟨s, h1, h2, h3⟩ := h
    exact ⟨s, h1, h2, (memRel_call h1 m ⟨p, c⟩ .close h3 trivial).2⟩
  | file b f =>
    obtain ⟨rfl, h2, h3⟩ := h
    exact ⟨rfl, ⟨rfl, h2.pos, h2.le, h2.cached⟩, h3⟩
  | object b s =>
    obtain ⟨rfl, h2, h3⟩ := h
    subst h2
    exact ⟨rfl, rfl, h3⟩

theorem over_arrowRead {whole : Bool} {x : Bytes} {r : RawStream} {p n : Nat} (h : OverBytes whole x r p false)
    (hn : n < 2 ^ 63) :
    (∃ got, Part whole x p n got ∧ (r.arrowRead n).1 = .bytes got ∧
      OverBytes whole x (r.arrowRead n).2 (p + got.length) false) ∧
    (∃ got, Part whole x p n got ∧ (r.arrowReadBuffer n).1 = .bytes got ∧
      OverBytes whole x (r.arrowReadBuffer n).2 (p + got.length) false) := by
  constructor
  · obtain ⟨got, h1, h2, h3⟩ := over_read h hn (.readInto n) (Or.inl rfl)
    refine ⟨got, h1, ?_⟩
    unfold RawStream.arrowRead
    rw [if_neg (by rw [over_closed h]; simp), if_neg (by omega), asSizeT_nat hn]
    exact ⟨by rw [h2]; rfl, h3⟩
  · obtain ⟨got, h1, h2, h3⟩ := over_read h hn (.read n) (Or.inr rfl)
    refine ⟨got, h1, ?_⟩
    unfold RawStream.arrowReadBuffer
    rw [if_neg (by rw [over_closed h]; simp), if_neg (by omega), asSizeT_nat hn]
    exact ⟨by rw [h2]; rfl, h3⟩

theorem over_arrowSeek {whole : Bool} {x : Bytes} {r : RawStream} {p q : Nat} (h : OverBytes whole x r p false)
    (hq : q < 2 ^ 63) :
    ((r.arrowSeek q).1 = .done ∧ OverBytes whole x (r.arrowSeek q).2 (min q x.length) false) ∨
    (x.length < q ∧ (r.arrowSeek q).1 = .failed .unknownError ∧ OverBytes whole x (r.arrowSeek q).2 p false) := by
  unfold RawStream.arrowSeek
  rw [if_neg (by rw [over_closed h]; simp), asSizeT_nat hq]
  rcases over_seek h hq with ⟨h1, h2⟩ | ⟨h1, h2, h3⟩
  · exact Or.inl ⟨by rw [h1]; rfl, h2⟩
  · exact Or.inr ⟨h1, by rw [h2]; rfl, h3⟩

theorem part_end {whole : Bool} {x got : Bytes} {n : Nat} (h : Part whole x x.length n got) : got = [] := by
  obtain ⟨h1, _, _⟩ := h
  simpa using h1

/-- Every sequence of calls is answered as by a file over the bytes. -/
theorem over_calls {whole : Bool} {x : Bytes} (hx : x.length < 2 ^ 63) : ∀ (ks : List ArrowCall) (r : RawStream) (p : Nat)
    (c : Bool), OverBytes whole x r p c → (∀ k ∈ ks, ArrowCall.Valid k) → Answers whole x p c ks (r.arrowCalls ks)
  | [], _, p, c, _, _ => .nil p c
  | k :: ks, r, p, c, h, hv => by
    have hcl := over_closed h
    have hk : ArrowCall.Valid k := hv k (by simp)
    have hv' : ∀ k ∈ ks, ArrowCall.Valid k := fun k' hk' => hv k' (by simp [hk'])
    have hle := over_le h
    unfold RawStream.arrowCalls
    cases c with
    | true =>
      cases k with
      | close => exact .close _ _ _ _ (over_calls hx ks _ _ _ (over_close h) hv')
      | closed =>
        simp only [RawStream.arrowCall, hcl]
        exact .closed _ _ _ _ (over_calls hx ks _ _ _ h hv')
      | read n =>
        simp only [RawStream.arrowCall, RawStream.arrowRead, hcl, if_true]
        exact .refuse _ _ _ _ (by simp) (by simp) (over_calls hx ks _ _ _ h hv')
      | readBuffer n =>
        simp only [RawStream.arrowCall, RawStream.arrowReadBuffer, hcl, if_true]
        exact .refuse _ _ _ _ (by simp) (by simp) (over_calls hx ks _ _ _ h hv')
      | readAt q n =>
        simp only [RawStream.arrowCall, RawStream.arrowSeek, hcl, if_true, reduceCtorEq, if_false]
        exact .refuse _ _ _ _ (by simp) (by simp) (over_calls hx ks _ _ _ h hv')
      | readBufferAt q n =>
        simp only [RawStream.arrowCall, RawStream.arrowSeek, hcl, if_true, reduceCtorEq, if_false]
        exact .refuse _ _ _ _ (by simp) (by simp) (over_calls hx ks _ _ _ h hv')
      | seek q =>
        simp only [RawStream.arrowCall, RawStream.arrowSeek, hcl, if_true]
        exact .refuse _ _ _ _ (by simp) (by simp) (over_calls hx ks _ _ _ h hv')
      | tell =>
        simp only [RawStream.arrowCall, hcl, if_true]
        exact .refuse _ _ _ _ (by simp) (by simp) (over_calls hx ks _ _ _ h hv')
      | getSize =>
        simp only [RawStream.arrowCall, hcl, if_true]
        exact .refuse _ _ _ _ (by simp) (by simp) (over_calls hx ks _ _ _ h hv')
    | false =>
      cases k with
      | close => exact .close _ _ _ _ (over_calls hx ks _ _ _ (over_close h) hv')
      | closed =>
        simp only [RawStream.arrowCall, hcl]
        exact .closed _ _ _ _ (over_calls hx ks _ _ _ h hv')
      | read n =>
        obtain ⟨h0, h63⟩ := hk
        obtain ⟨n, rfl⟩ := Int.eq_ofNat_of_zero_le h0
        obtain ⟨got, h1, h2, h3⟩ := (over_arrowRead h (n := n) (by omega)).1
        simp only [RawStream.arrowCall]
        rw [h2]
        exact .read p n _ got _ _ (Or.inl rfl) h1 (over_calls hx ks _ _ _ h3 hv')
      | readBuffer n =>
        obtain ⟨h0, h63⟩ := hk
        obtain ⟨n, rfl⟩ := Int.eq_ofNat_of_zero_le h0
        obtain ⟨got, h1, h2, h3⟩ := (over_arrowRead h (n := n) (by omega)).2
        simp only [RawStream.arrowCall]
        rw [h2]
        exact .read p n _ got _ _ (Or.inr rfl) h1 (over_calls hx ks _ _ _ h3 hv')
      | readAt q n =>
        obtain ⟨⟨h0, h63⟩, h0', h63'⟩ := hk
        obtain ⟨n, rfl⟩ := Int.eq_ofNat_of_zero_le h0'
        obtain ⟨q, rfl⟩ := Int.eq_ofNat_of_zero_le h0
        simp only [RawStream.arrowCall]
        rcases over_arrowSeek h (q := q) (by omega) with ⟨h1, h2⟩ | ⟨h1, h2, h3⟩
        · rw [if_pos h1]
          obtain ⟨got, h4, h5, h6⟩ := (over_arrowRead h2 (n := n) (by omega)).1
          rw [h5]
          by_cases hq : q ≤ x.length
          · rw [Nat.min_eq_left hq] at h4 h6
            exact .readAt p q n _ got _ _ (Or.inl rfl) hq h4 (over_calls hx ks _ _ _ h6 hv')
          · rw [Nat.min_eq_right (by omega)] at h4 h6
            rw [part_end h4] at h6 ⊢
            exact .readEnd p q n _ _ _ (Or.inl rfl) (by omega) (over_calls hx ks _ _ _ h6 hv')
        · rw [if_neg (by rw [h2]; simp), h2]
          exact .beyond p q n _ _ _ (Or.inr (Or.inl rfl)) h1 (over_calls hx ks _ _ _ h3 hv')
      | readBufferAt q n =>
        obtain ⟨⟨h0, h63⟩, h0', h63'⟩ := hk
        obtain ⟨n, rfl⟩ := Int.eq_ofNat_of_zero_le h0'
        obtain ⟨q, rfl⟩ := Int.eq_ofNat_of_zero_le h0
        simp only [RawStream.arrowCall]
        rcases over_arrowSeek h (q := q) (by omega) with ⟨h1, h2⟩ | ⟨h1, h2, h3⟩
        · rw [if_pos h1]
          obtain ⟨got, h4, h5, h6⟩ := (over_arrowRead h2 (n := n) (by omega)).2
          rw [h5]
          by_cases hq : q ≤ x.length
          · rw [Nat.min_eq_left hq] at h4 h6
            exact .readAt p q n _ got _ _ (Or.inr rfl) hq h4 (over_calls hx ks _ _ _ h6 hv')
          · rw [Nat.min_eq_right (by omega)] at h4 h6
            rw [part_end h4] at h6 ⊢
            exact .readEnd p q n _ _ _ (Or.inr rfl) (by omega) (over_calls hx ks _ _ _ h6 hv')
        · rw [if_neg (by rw [h2]; simp), h2]
          exact .beyond p q n _ _ _ (Or.inr (Or.inr rfl)) h1 (over_calls hx ks _ _ _ h3 hv')
      | seek q =>
        obtain ⟨h0, h63⟩ := hk
        obtain ⟨q, rfl⟩ := Int.eq_ofNat_of_zero_le h0
        simp only [RawStream.arrowCall]
        rcases over_arrowSeek h (q := q) (by omega) with ⟨h1, h2⟩ | ⟨h1, h2, h3⟩
        · rw [h1]
          by_cases hq : q ≤ x.length
          · rw [Nat.min_eq_left hq] at h2
            exact .seek p q _ _ hq (over_calls hx ks _ _ _ h2 hv')
          · rw [Nat.min_eq_right (by omega)] at h2
            exact .seekEnd p q _ _ (by omega) (over_calls hx ks _ _ _ h2 hv')
        · rw [h2]
          exact .beyond p q 0 _ _ _ (Or.inl rfl) h1 (over_calls hx ks _ _ _ h3 hv')
      | tell =>
        obtain ⟨_, h1, h2⟩ := over_num h
        simp only [RawStream.arrowCall, hcl, Bool.false_eq_true, if_false]
        rw [h1, arrowBoundary, asSsize_small (by omega)]
        exact .tell _ _ _ (over_calls hx ks _ _ _ h2 hv')
      | getSize =>
        obtain ⟨⟨h1, h2⟩, _⟩ := over_num h
        simp only [RawStream.arrowCall, hcl, Bool.false_eq_true, if_false]
        rw [h1, arrowBoundary, asSsize_small (by omega)]
        exact .getSize _ _ _ (over_calls hx ks _ _ _ h2 hv')

/-- Opening a data store that is not compressed. -/
theorem over_store {z : Inflater} {w : World} {st : Store} {x : Bytes} (whole : Bool) (h : BytesBehind w st x)
    (hx : x.length < 2 ^ 63) (hc : st.compression = .none) (hw : whole = true → WholeReads w st) :
    ∃ r, asArrowFile z w st = .ok r ∧ OverBytes whole x r 0 false := by
  have hin : InBlock x ⟨0, x.length⟩ := ⟨by simp, by simp, by simp, hx⟩
  have hbs : PSlice.bytes x ⟨0, x.length⟩ = x := by simp [PSlice.bytes]
  have hm : OverBytes whole x (.memory x (MemStream.new ⟨0, x.length⟩)) 0 false :=
    ⟨⟨0, x.length⟩, hin, hbs, ⟨rfl, fun _ => rfl, fun _ => by simp [MemStream.new], by simp⟩⟩
  cases st with
  | file path mm c =>
    simp only [Store.compression] at hc
    subst hc
    obtain ⟨sched, h⟩ := h
    cases mm with
    | true => exact ⟨_, by simp only [asArrowFile, Store.openRead, Store.raw, h, if_true, Store.compression, makeInflate], hm⟩
    | false =>
      refine ⟨.file x (FileStream.new sched), by simp only [asArrowFile, Store.openRead, Store.raw, h, Bool.false_eq_true, if_false, Store.compression,
        makeInflate], rfl, ⟨rfl, rfl, by simp, Or.inl rfl⟩, fun hh => ?_⟩
      rcases hw hh with h' | h'
      · simp at h'
      · exact h' x sched h
  | memory chunk c =>
    simp only [Store.compression] at hc
    subst hc
    simp only [BytesBehind] at h
    subst h
    exact ⟨_, by simp only [asArrowFile, Store.openRead, Store.raw, Store.compression, makeInflate], hm⟩
  | object uri version c =>
    simp only [Store.compression] at hc
    subst hc
    obtain ⟨b, k, h1, h2⟩ := h
    refine ⟨.object x (S3Stream.new x), by simp only [asArrowFile, Store.openRead, Store.raw, ((C52_object_uri uri).1 b k).2 h1, h2, Store.compression,
        makeInflate], rfl, rfl, by simp⟩

/-- A positioned read gives the same whatever happened before. -/
theorem answers_readAt {x : Bytes} {q n : Nat} {k : ArrowCall} (hk : k = .readAt q n ∨ k = .readBufferAt q n)
    (hq : q ≤ x.length) : ∀ (ks : List ArrowCall) (p : Nat) (os : List ArrowOut), ArrowCall.close ∉ ks →
    Answers true x p false (ks ++ [k]) os → os.getLast? = some (.bytes ((x.drop q).take n))
  | [], p, os, _, h => by
    simp only [List.nil_append] at h
    cases h with
    | close => rcases hk with h | h <;> simp at h
    | closed => rcases hk with h | h <;> simp at h
    | read p' n' k' got ks os h' => rcases hk with rfl | rfl <;> rcases h' with h' | h' <;> simp at h'
    | readAt p' q' n' k' got ks os h1 h2 h3 h4 =>
      have e : q' = q ∧ n' = n := by
        rcases hk with rfl | rfl <;> rcases h1 with h1 | h1 <;> simp at h1 <;> omega
      obtain ⟨rfl, rfl⟩ := e
      cases h4
      simp [h3.2.1 rfl]
    | seek => rcases hk with h | h <;> simp at h
    | tell => rcases hk with h | h <;> simp at h
    | getSize => rcases hk with h | h <;> simp at h
    | seekEnd => rcases hk with h | h <;> simp at h
    | readEnd p' q' n' k' ks os h1 h2 h3 =>
      have e : q' = q ∧ n' = n := by
        rcases hk with rfl | rfl <;> rcases h1 with h1 | h1 <;> simp at h1 <;> omega
      omega
    | beyond p' q' n' k' ks os h1 h2 h3 =>
      have e : q' = q := by
        rcases hk with rfl | rfl <;> rcases h1 with h1 | h1 | h1 <;> simp at h1 <;> omega
      omega
  | k' :: ks, p, os, hc, h => by
    have hc' : ArrowCall.close ∉ ks := fun hh => hc (by simp [hh])
    have hne : ∀ (p : Nat) (os : List ArrowOut), Answers true x p false (ks ++ [k]) os → ∀ o : ArrowOut,
        (o :: os).getLast? = some (.bytes ((x.drop q).take n)) := by
      intro p os hh o
      rw [List.getLast?_cons, answers_readAt hk hq ks p os hc' hh]
      rfl
    cases h with
    | close => simp at hc
    | closed _ _ _ _ h => exact hne _ _ h _
    | read _ _ _ _ _ _ _ _ h => exact hne _ _ h _
    | readAt _ _ _ _ _ _ _ _ _ _ h => exact hne _ _ h _
    | seek _ _ _ _ _ h => exact hne _ _ h _
    | tell _ _ _ h => exact hne _ _ h _
    | getSize _ _ _ h => exact hne _ _ h _
    | seekEnd _ _ _ _ _ h => exact hne _ _ h _
    | readEnd _ _ _ _ _ _ _ _ h => exact hne _ _ h _
    | beyond _ _ _ _ _ _ _ _ h => exact hne _ _ h _

/-- Reading on gives the bytes one after another, each read at least one until there is none. -/
theorem answers_reads {whole : Bool} {x : Bytes} : ∀ (ns : List Nat) (p : Nat) (os : List ArrowOut), (∀ n ∈ ns, 0 < n) →
    Answers whole x p false (ns.map (fun n : Nat => ArrowCall.read n)) os →
    ∃ gots : List Bytes, os = gots.map ArrowOut.bytes ∧ gots.flatten <+: x.drop p ∧
      (x.length - p ≤ ns.length → gots.flatten = x.drop p)
  | [], p, os, _, h => by
    cases h
    exact ⟨[], rfl, by simp, fun hh => by
      symm; simp only [List.flatten_nil]; exact List.drop_of_length_le (by simp at hh; omega)⟩
  | n :: ns, p, os, hp, h => by
    have h0 := hp n (by simp)
    simp only [List.map_cons] at h
    cases h with
    | readAt p' q' n' k' got ks os h1 => rcases h1 with h1 | h1 <;> simp at h1
    | readEnd p' q' n' k' ks os h1 => rcases h1 with h1 | h1 <;> simp at h1
    | beyond p' q' n' k' ks os h1 => rcases h1 with h1 | h1 | h1 <;> simp at h1
    | read p' n' k' got ks os h1 h2 h3 =>
      have e : n' = n := by rcases h1 with h1 | h1 <;> simp at h1; omega
      subst e
      obtain ⟨gots, e1, e2, e3⟩ := answers_reads ns _ _ (fun n hn => hp n (by simp [hn])) h3
      obtain ⟨p1, _, p3⟩ := h2
      have hpre : got <+: x.drop p := p1.trans (List.take_prefix _ _)
      have hd : x.drop p = got ++ x.drop (p + got.length) := by
        obtain ⟨t, ht⟩ := hpre
        rw [← List.drop_drop, ← ht]
        simp
      refine ⟨got :: gots, by simp [e1], ?_, ?_⟩
      · rw [hd]
        simpa using List.prefix_append_right_inj got |>.2 e2
      · intro hl
        rw [hd, List.flatten_cons, e3]
        simp only [List.length_cons] at hl
        by_cases hp' : x.length ≤ p
        · omega
        · have : got ≠ [] := p3 (by
            intro hh
            have := congrArg List.length hh
            simp only [List.length_take, List.length_drop, List.length_nil] at this
            omega)
          have := List.length_pos_iff.2 this
          omega

end Mlio
