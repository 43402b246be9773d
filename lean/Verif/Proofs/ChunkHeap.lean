import Verif.Spec.ChunkHeap
import Verif.Proofs.Memory

namespace Mlio
open Spec

theorem deref_length {bs : List HBlock} {s : HSlice} {x : Bytes} (h : deref bs s = some x) :
    x.length = s.len ∧ ∃ b, bs[s.block]? = some b ∧ b.gen = s.gen ∧ s.off + s.len ≤ b.data.length ∧
      x = (b.data.drop s.off).take s.len := by
  unfold deref at h
  split at h
  · simp at h
  · rename_i b hb
    split at h
    · rename_i hc
      simp only [Option.some.injEq] at h
      subst h
      refine ⟨?_, b, hb, hc.1, hc.2, rfl⟩
      simp only [List.length_take, List.length_drop]
      omega
    · simp at h

theorem deref_of {bs : List HBlock} {s : HSlice} {b : HBlock} (hb : bs[s.block]? = some b) (hg : b.gen = s.gen)
    (hl : s.off + s.len ≤ b.data.length) : deref bs s = some ((b.data.drop s.off).take s.len) := by
  unfold deref
  rw [hb]
  simp only
  rw [if_pos ⟨hg, hl⟩]

theorem deref_set {bs : List HBlock} {s : HSlice} {b : Nat} {v : HBlock} (h : s.block ≠ b) :
    deref (bs.set b v) s = deref bs s := by
  unfold deref
  rw [List.getElem?_set_ne (Ne.symm h)]

theorem deref_append {bs : List HBlock} {s : HSlice} {v : HBlock} (h : s.block < bs.length) :
    deref (bs ++ [v]) s = deref bs s := by
  unfold deref
  rw [List.getElem?_append_left h]

/-- Existing records are intact, and the block that the chunk reader may write to has existing records only if the
stream record reader has a slice of it that is not all of it. -/
structure Heap.Safe (h : Heap) : Prop where
  intact : Intact h
  own : ∀ b, h.chunk = some b → ∀ r ∈ h.held, r.1.block = b →
    ∃ s blk, h.slice = some s ∧ s.block = b ∧ h.blocks[b]? = some blk ∧ s.len < blk.data.length

theorem held_lt {h : Heap} (hs : h.Safe) {r : HSlice × Bytes} (hr : r ∈ h.held) : r.1.block < h.blocks.length := by
  obtain ⟨_, b, hb, _⟩ := deref_length (hs.intact r hr)
  exact (List.getElem?_eq_some_iff.1 hb).1

/-- The block to fill has no existing records, and the others are as before. -/
theorem prepare_safe (junk : Nat → UInt8) (h : Heap) (leftover : Bytes) (hs : h.Safe)
    (hl : ∀ s, h.slice = some s → s.len = leftover.length) :
    (∀ r ∈ h.held, r.1.block ≠ (h.prepare junk leftover).2.1) ∧
    (∀ r ∈ h.held, deref (h.prepare junk leftover).1 r.1 = deref h.blocks r.1) := by
  have hfresh : (∀ r ∈ h.held, r.1.block ≠ h.blocks.length) ∧
      (∀ (v : HBlock), ∀ r ∈ h.held, deref (h.blocks ++ [v]) r.1 = deref h.blocks r.1) :=
    ⟨fun r hr => by have := held_lt hs hr; omega, fun v r hr => deref_append (held_lt hs hr)⟩
  unfold Heap.prepare
  cases hc : h.chunk with
  | none => exact ⟨hfresh.1, hfresh.2 _⟩
  | some b =>
    simp only
    cases hb : h.blocks[b]? with
    | none => exact ⟨hfresh.1, hfresh.2 _⟩
    | some blk =>
      simp only
      by_cases hwhole : blk.data.length = leftover.length
      · rw [if_pos hwhole]
        have hno : ∀ r ∈ h.held, r.1.block ≠ b := by
          intro r hr he
          obtain ⟨s, blk', h1, h2, h3, h4⟩ := hs.own b hc r hr he
          rw [hb] at h3
          simp only [Option.some.injEq] at h3
          subst h3
          have := hl s h1
          omega
        generalize (if blk.data.length = h.next then h.next * 2 else h.next) = nx
        by_cases hq : blk.data.length ≠ nx
        · rw [if_pos hq]
          exact ⟨hno, fun r hr => deref_set (hno r hr)⟩
        · rw [if_neg hq]
          exact ⟨hno, fun r hr => rfl⟩
      · rw [if_neg hwhole]
        by_cases hu : h.useCount b ≤ 2
        · rw [if_pos hu]
          have hno : ∀ r ∈ h.held, r.1.block ≠ b := by
            intro r hr he
            obtain ⟨s, blk', h1, h2, h3, h4⟩ := hs.own b hc r hr he
            have hcount : 0 < h.held.countP (fun r => r.1.block == b) :=
              List.countP_pos_iff.2 ⟨r, hr, by simp [he]⟩
            have : h.useCount b = 1 + 1 + h.held.countP (fun r => r.1.block == b) := by
              unfold Heap.useCount
              rw [if_pos hc, h1]
              simp only [h2, if_true]
            omega
          split
          · exact ⟨hno, fun r hr => deref_set (hno r hr)⟩
          · exact ⟨hno, fun r hr => deref_set (hno r hr)⟩
        · rw [if_neg hu]
          exact ⟨hfresh.1, hfresh.2 _⟩

theorem readChunk_safe (junk : Nat → UInt8) (F : Filler) (h : Heap) (leftover : Bytes) (f : F.σ) (hs : h.Safe)
    (hl : ∀ s, h.slice = some s → s.len = leftover.length) (hcn : h.eof = true → h.chunk = none) :
    (h.readChunk junk F leftover f).2.1.Safe ∧
    ((h.readChunk junk F leftover f).2.1.eof = true → (h.readChunk junk F leftover f).2.1.chunk = none) := by
  unfold Heap.readChunk
  by_cases he : h.eof = true
  · rw [if_pos he]
    refine ⟨⟨hs.intact, ?_⟩, fun _ => hcn he⟩
    intro b hb
    simp only at hb
    rw [hcn he] at hb
    simp at hb
  · rw [if_neg he]
    obtain ⟨h1, h2⟩ := prepare_safe junk h leftover hs hl
    revert h1 h2
    rcases h.prepare junk leftover with ⟨blocks, b, next⟩
    simp only
    intro h1 h2
    cases hb : blocks[b]? with
    | none => exact ⟨hs, hcn⟩
    | some blk =>
      by_cases hov : leftover.length > blk.data.length
      · simp only [hov, if_true]
        exact ⟨hs, hcn⟩
      · simp only [hov, if_false]
        generalize F.fill f (blk.data.length - leftover.length) = q
        rcases q with ⟨got, e, f'⟩
        have hi : ∀ (v : HBlock), ∀ r ∈ h.held, deref (blocks.set b v) r.1 = some r.2 := by
          intro v r hr
          rw [deref_set (h1 r hr), h2 r hr]
          exact hs.intact r hr
        cases e with
        | threw e =>
          refine ⟨⟨hi _, ?_⟩, fun hx => absurd hx he⟩
          intro b' hb' r hr hrb
          exact absurd (hrb.trans (Option.some.inj hb').symm) (h1 r hr)
        | eof =>
          refine ⟨⟨hi _, ?_⟩, fun _ => rfl⟩
          intro b' hb'
          cases hb'
        | full =>
          refine ⟨⟨hi _, ?_⟩, fun hx => absurd hx he⟩
          intro b' hb' r hr hrb
          exact absurd (hrb.trans (Option.some.inj hb').symm) (h1 r hr)

theorem advance_slice {h : Heap} {s : HSlice} (hs : h.slice = some s) {n : Nat} (hn : n ≤ s.len) :
    (h.advance n).slice = some ⟨s.block, s.gen, s.off + (s.len - n), n⟩ := by
  simp only [Heap.advance, hs, Option.map_some, HSlice.drop]
  congr 2
  omega

theorem advance_none {h : Heap} (hs : h.slice = none) {n : Nat} : (h.advance n).slice = none := by
  simp [Heap.advance, hs]

/-- A view is as long as the slice. -/
theorem view_length {h : Heap} {x : Bytes} (hv : h.view = some x) {s : HSlice} (hs : h.slice = some s) :
    x.length = s.len := by
  unfold Heap.view at hv
  rw [hs] at hv
  exact (deref_length hv).1

theorem advance_safe {h : Heap} {x : Bytes} (hs : h.Safe) (hv : h.view = some x) {n : Nat} (hn : n ≤ x.length)
    (next : Nat) : Heap.Safe ⟨h.blocks, h.chunk, next, h.eof, (h.advance n).slice, h.held⟩ := by
  refine ⟨hs.intact, ?_⟩
  intro b hb r hr hrb
  obtain ⟨s, blk, h1, h2, h3, h4⟩ := hs.own b hb r hr hrb
  have := view_length hv h1
  exact ⟨_, blk, advance_slice h1 (by omega), h2, h3, by simp only; omega⟩

theorem readCore_safe (junk : Nat → UInt8) (F : Filler) (dec : Bytes → Bool → Dec Record) (off : Bytes → Bool → Nat)
    (hd : Located dec off) : ∀ (fuel : Nat) (h : Heap) (f : F.σ), h.Safe → (h.eof = true → h.chunk = none) →
    (h.readCore junk F dec off fuel f).2.1.Safe ∧
    ((h.readCore junk F dec off fuel f).2.1.eof = true → (h.readCore junk F dec off fuel f).2.1.chunk = none)
  | 0, h, f, hs, hc => ⟨hs, hc⟩
  | fuel + 1, h, f, hs, hc => by
    unfold Heap.readCore
    cases hv : h.view with
    | none => exact ⟨hs, hc⟩
    | some x =>
      simp only
      cases hdx : dec x (!h.eof) with
      | ub w => exact ⟨hs, hc⟩
      | fail e rest =>
        have hsuf := hd.fail _ _ _ _ hdx
        exact ⟨advance_safe hs hv hsuf.length_le h.next, hc⟩
      | got r rest =>
        obtain ⟨h1, h2, h3, h4⟩ := hd.got _ _ _ _ hdx
        cases hsl : h.slice with
        | none => exact ⟨hs, hc⟩
        | some s =>
          simp only
          have hxl := view_length hv hsl
          have hv' := hv
          unfold Heap.view at hv'
          rw [hsl] at hv'
          obtain ⟨_, blk, hb, hg, hbl, hx⟩ := deref_length hv'
          have hadv := advance_safe hs hv (n := rest.length) (by omega) h.next
          refine ⟨⟨?_, ?_⟩, hc⟩
          · intro q hq
            simp only [List.mem_cons] at hq
            rcases hq with rfl | hq
            · simp only
              rw [show (h.advance rest.length).blocks = h.blocks from rfl]
              rw [deref_of (s := ⟨s.block, s.gen, s.off + off x (!h.eof), r.payload.length⟩) (b := blk) hb hg
                (by simp only; omega)]
              simp only
              rw [Option.some.injEq]
              conv => rhs; rw [← h4]
              generalize off x (!h.eof) = o at h3
              rw [hx, List.drop_take, List.drop_drop, List.take_take]
              congr 1
              omega
            · exact hadv.intact q hq
          · intro b hcb q hq hqb
            simp only [List.mem_cons] at hq
            rcases hq with rfl | hq
            · simp only at hqb
              subst hqb
              exact ⟨_, blk, advance_slice hsl (by omega), rfl, hb, by simp only; omega⟩
            · exact hadv.own b hcb q hq hqb
      | more rest hint =>
        have hsuf := hd.more _ _ _ _ hdx
        have hadv : (h.hinted rest.length hint).Safe :=
          advance_safe hs hv hsuf.length_le (growHint hint h.next hint)
        have hl : ∀ s, (h.hinted rest.length hint).slice = some s →
            s.len = rest.length := by
          intro s hsl
          simp only [Heap.hinted] at hsl
          cases hsl0 : h.slice with
          | none =>
            have := advance_none hsl0 (n := rest.length)
            rw [this] at hsl
            simp at hsl
          | some s0 =>
            have hxl := view_length hv hsl0
            have := hsuf.length_le
            rw [advance_slice hsl0 (by omega)] at hsl
            simp only [Option.some.injEq] at hsl
            rw [← hsl]
        obtain ⟨hr1, hr2⟩ := readChunk_safe junk F _ rest f hadv hl hc
        rcases hq : Heap.readChunk junk F (h.hinted rest.length hint) rest f with ⟨r, h2, f'⟩
        rw [hq] at hr1 hr2
        simp only [hq]
        cases r with
        | err e => exact ⟨hr1, hr2⟩
        | ub w => exact ⟨hr1, hr2⟩
        | ok u =>
          cases hv2 : h2.view with
          | none => simp only [hv2]; exact ⟨hr1, hr2⟩
          | some y =>
            simp only [hv2]
            split
            · exact ⟨hr1, hr2⟩
            · exact readCore_safe junk F dec off hd fuel h2 f' hr1 hr2

theorem op_safe (junk : Nat → UInt8) (F : Filler) (dec : Bytes → Bool → Dec Record) (off : Bytes → Bool → Nat)
    (hd : Located dec off) (h : Heap) (f : F.σ) (o : HeapOp) (hs : h.Safe) (hc : h.eof = true → h.chunk = none) :
    (h.op junk F dec off f o).2.1.Safe ∧
    ((h.op junk F dec off f o).2.1.eof = true → (h.op junk F dec off f o).2.1.chunk = none) := by
  cases o with
  | read fuel => exact readCore_safe junk F dec off hd fuel h f hs hc
  | copy i =>
    simp only [Heap.op]
    cases hi : h.held[i]? with
    | none => exact ⟨hs, hc⟩
    | some r =>
      have hm : r ∈ h.held := List.mem_of_getElem? hi
      have hsub : ∀ q, q ∈ r :: h.held → q ∈ h.held := by
        intro q hq
        simp only [List.mem_cons] at hq
        rcases hq with rfl | hq
        · exact hm
        · exact hq
      exact ⟨⟨fun q hq => hs.intact q (hsub q hq), fun b hb q hq => hs.own b hb q (hsub q hq)⟩, hc⟩
  | release i =>
    have hsub : ∀ q, q ∈ h.held.eraseIdx i → q ∈ h.held := fun q hq => List.mem_of_mem_eraseIdx hq
    exact ⟨⟨fun q hq => hs.intact q (hsub q hq), fun b hb q hq => hs.own b hb q (hsub q hq)⟩, hc⟩

theorem ops_safe (junk : Nat → UInt8) (F : Filler) (dec : Bytes → Bool → Dec Record) (off : Bytes → Bool → Nat)
    (hd : Located dec off) : ∀ (os : List HeapOp) (h : Heap) (f : F.σ), h.Safe → (h.eof = true → h.chunk = none) →
    (h.ops junk F dec off f os).2.1.Safe
  | [], _, _, hs, _ => hs
  | o :: os, h, f, hs, hc => by
    obtain ⟨h1, h2⟩ := op_safe junk F dec off hd h f o hs hc
    exact ops_safe junk F dec off hd os _ _ h1 h2

/-! ## The reader without memory -/

/-- The heap and the plain reader agree. -/
structure HeapRel (h : Heap) (f : Stream) (st : Reader) : Prop where
  stream : st.cr.stream = f
  next : st.cr.next = h.next
  eof : st.cr.eof = h.eof
  view : h.view = some st.chunk
  eofc : h.eof = true → h.chunk = none
  chunk : match h.chunk with
    | none => st.cr.held = none
    | some b => ∃ blk s, h.blocks[b]? = some blk ∧ h.slice = some s ∧ s.block = b ∧ s.gen = blk.gen ∧
      s.off + s.len = blk.data.length ∧ blk.data.length ≤ h.next ∧ st.cr.held = some blk.data.length
  fits : st.chunk.length ≤ h.next

theorem overwrite_take (w old : Bytes) : (overwrite w old).take w.length = w := by
  simp [overwrite]

theorem overwrite_length (w old : Bytes) (h : w.length ≤ old.length) : (overwrite w old).length = old.length := by
  simp only [overwrite, List.length_append, List.length_drop]
  omega

theorem prepare_rel (junk : Nat → UInt8) (h : Heap) (f : Stream) (st : Reader) (hr : HeapRel h f st) :
    ∃ blocks b blk, h.prepare junk st.chunk = (blocks, b, st.cr.nextSize st.chunk) ∧ blocks[b]? = some blk ∧
      blk.data.length = st.cr.nextSize st.chunk ∧ blk.data.take st.chunk.length = st.chunk := by
  obtain ⟨r1, r2, r3, r4, _, r5, r6⟩ := hr
  have fresh : ∀ n, n = h.next → ∃ blocks b blk,
      (h.blocks ++ [⟨0, overwrite st.chunk (reallocBytes junk [] h.next)⟩], h.blocks.length, h.next) = (blocks, b, n) ∧
      blocks[b]? = some blk ∧ blk.data.length = n ∧ blk.data.take st.chunk.length = st.chunk := by
    rintro n rfl
    refine ⟨_, _, ⟨0, overwrite st.chunk (reallocBytes junk [] h.next)⟩, rfl, by simp, ?_, overwrite_take _ _⟩
    simp only
    rw [overwrite_length _ _ (by rw [(reallocBytes_spec junk [] h.next).1]; exact r6),
      (reallocBytes_spec junk [] h.next).1]
  unfold Heap.prepare
  cases hc : h.chunk with
  | none =>
    rw [hc] at r5
    simp only at r5
    exact fresh _ (by simp [ChunkReader.nextSize, r5, r2])
  | some b =>
    rw [hc] at r5
    obtain ⟨blk, s, hb, hsl, hsb, hsg, hso, hle, hh⟩ := r5
    have hxl := view_length r4 hsl
    have hv := r4
    unfold Heap.view at hv
    rw [hsl] at hv
    obtain ⟨_, blk', hb', _, hbl, hx⟩ := deref_length hv
    rw [hsb, hb] at hb'
    simp only [Option.some.injEq] at hb'
    subst hb'
    simp only [hb]
    have hblt : b < h.blocks.length := (List.getElem?_eq_some_iff.1 hb).1
    have hres : ∀ (d : Bytes) (m : Nat), d.length ≤ m → d.take st.chunk.length = st.chunk →
        st.chunk.length ≤ d.length → (reallocBytes junk d m).take st.chunk.length = st.chunk := by
      intro d m hdm ht hle'
      unfold reallocBytes
      rw [List.take_of_length_le (l := d) hdm, List.take_append_of_le_length hle', ht]
    by_cases hwhole : blk.data.length = st.chunk.length
    · rw [if_pos hwhole]
      have hdata : blk.data = st.chunk := by
        have : s.off = 0 := by omega
        rw [hx, this, List.drop_zero, List.take_of_length_le (by omega)]
      have hn : (if blk.data.length = h.next then h.next * 2 else h.next) = st.cr.nextSize st.chunk := by
        simp only [ChunkReader.nextSize, hh, r2, hwhole, true_and]
      rw [hn]
      have hge : blk.data.length ≤ st.cr.nextSize st.chunk := by
        rw [← hn]; split <;> omega
      split
      · refine ⟨_, _, ⟨blk.gen + 1, reallocBytes junk blk.data (st.cr.nextSize st.chunk)⟩, rfl,
          by rw [List.getElem?_set_self hblt], (reallocBytes_spec junk _ _).1, ?_⟩
        exact hres _ _ hge (by rw [hdata]; simp) (by omega)
      · rename_i hne
        exact ⟨_, _, blk, rfl, hb, Classical.not_not.1 hne, by rw [hdata]; simp⟩
    · rw [if_neg hwhole]
      have hn : st.cr.nextSize st.chunk = h.next := by
        simp only [ChunkReader.nextSize, hh, r2]
        rw [if_neg (by omega)]
      by_cases hu : h.useCount b ≤ 2
      · rw [if_pos hu, hn]
        have hol := overwrite_length st.chunk blk.data (by omega)
        split
        · refine ⟨_, _, ⟨blk.gen + 1, reallocBytes junk (overwrite st.chunk blk.data) h.next⟩, rfl,
            by rw [List.getElem?_set_self hblt], (reallocBytes_spec junk _ _).1, ?_⟩
          exact hres _ _ (by omega) (overwrite_take _ _) (by omega)
        · rename_i hne
          refine ⟨_, _, ⟨blk.gen, overwrite st.chunk blk.data⟩, rfl, by rw [List.getElem?_set_self hblt], ?_,
            overwrite_take _ _⟩
          simp only
          rw [hol]
          exact Classical.not_not.1 hne
      · rw [if_neg hu]
        exact fresh _ hn

theorem readChunk_rel (junk : Nat → UInt8) (h : Heap) (f : Stream) (st : Reader) (hr : HeapRel h f st) :
    ∃ y cr' h' f', st.cr.readChunk st.chunk = .ok (y, cr') ∧
      h.readChunk junk streamFiller st.chunk f = (.ok (), h', f') ∧ HeapRel h' f' ⟨cr', y⟩ := by
  by_cases he : h.eof = true
  · refine ⟨[], st.cr, { h with slice := none }, f, by simp [ChunkReader.readChunk, hr.eof, he],
      by simp [Heap.readChunk, he], ?_⟩
    refine ⟨hr.stream, hr.next, hr.eof, rfl, hr.eofc, ?_, by simp⟩
    have := hr.chunk
    rw [hr.eofc he] at this
    simp only [hr.eofc he]
    exact this
  · obtain ⟨blocks, b, blk, e1, e2, e3, e4⟩ := prepare_rel junk h f st hr
    have hle : st.chunk.length ≤ blk.data.length := by
      have := congrArg List.length e4
      simp only [List.length_take] at this
      omega
    obtain ⟨got, s', e, hf, _, hg, hee, hff⟩ :=
      fillLoop_spec (blk.data.length - st.chunk.length) f (blk.data.length - st.chunk.length) (Nat.le_refl _)
    have hst := hr.stream
    have hef : h.eof = false := by simpa using he
    have hblt : b < blocks.length := (List.getElem?_eq_some_iff.1 e2).1
    have hdl : (blk.data.take st.chunk.length ++ overwrite got (blk.data.drop st.chunk.length)).length =
        blk.data.length := by
      simp only [List.length_append, List.length_take, overwrite, List.length_drop]
      omega
    have hdt : (blk.data.take st.chunk.length ++ overwrite got (blk.data.drop st.chunk.length)).take
        (st.chunk.length + got.length) = st.chunk ++ got := by
      rw [e4, List.take_append]
      simp only [Nat.add_sub_cancel_left, overwrite_take]
      rw [List.take_of_length_le (by omega)]
    refine ⟨st.chunk ++ got, ⟨s', st.cr.nextSize st.chunk, if e then none else some (st.cr.nextSize st.chunk), e⟩,
      ⟨blocks.set b ⟨blk.gen, blk.data.take st.chunk.length ++ overwrite got (blk.data.drop st.chunk.length)⟩,
        if e then none else some b, st.cr.nextSize st.chunk, e,
        some ⟨b, blk.gen, 0, st.chunk.length + got.length⟩, h.held⟩, s', ?_, ?_, ?_⟩
    · simp only [ChunkReader.readChunk, hr.eof, hef]
      rw [if_neg (by simp), if_neg (by omega), hst, ← e3, hf]
    · unfold Heap.readChunk
      rw [if_neg he, e1]
      simp only [e2]
      rw [if_neg (by omega)]
      simp only [streamFiller, hf, Heap.filled]
      cases e <;> simp [hef]
    · refine ⟨rfl, rfl, rfl, ?_, by cases e <;> simp, ?_, ?_⟩
      · simp only [Heap.view]
        rw [deref_of (b := ⟨blk.gen, blk.data.take st.chunk.length ++ overwrite got (blk.data.drop st.chunk.length)⟩)
          (by simp only; rw [List.getElem?_set_self hblt]) rfl (by simp only; omega)]
        simp only [List.drop_zero, hdt]
      · cases e with
        | true => simp
        | false =>
          have := hff rfl
          simp only [Bool.false_eq_true, if_false]
          exact ⟨_, _, List.getElem?_set_self hblt, rfl, rfl, rfl, by simp only; omega, by simp only; omega,
            by simp only [hdl, e3]⟩
      · simp only [List.length_append]
        omega

theorem HeapRel.advance {h : Heap} {f : Stream} {st : Reader} (hr : HeapRel h f st) {rest : Bytes}
    (hs : rest <:+ st.chunk) (next : Nat) (hn : h.next ≤ next) (held : List (HSlice × Bytes)) :
    HeapRel ⟨h.blocks, h.chunk, next, h.eof, (h.advance rest.length).slice, held⟩ f
      ⟨{ st.cr with next := next }, rest⟩ := by
  obtain ⟨r1, r2, r3, r4, r4', r5, r6⟩ := hr
  have hle := hs.length_le
  refine ⟨r1, rfl, r3, ?_, r4', ?_, by simp only; omega⟩
  · cases hsl : h.slice with
    | none =>
      simp only [Heap.view, hsl, Option.some.injEq] at r4
      rw [← r4] at hs
      have : rest = [] := by simpa using hs
      simp [Heap.view, Heap.advance, hsl, this]
    | some s =>
      have hxl := view_length r4 hsl
      simp only [Heap.view]
      rw [advance_slice hsl (by omega)]
      simp only [Heap.view, hsl] at r4
      obtain ⟨_, blk, hb, hg, hl, hx⟩ := deref_length r4
      simp only
      rw [deref_of (s := ⟨s.block, s.gen, s.off + (s.len - rest.length), rest.length⟩) hb hg (by simp only; omega)]
      simp only
      obtain ⟨pre, hp⟩ := hs
      have hpl : s.len - rest.length = pre.length := by
        have := congrArg List.length hp
        simp only [List.length_append] at this
        omega
      have : rest = st.chunk.drop pre.length := by rw [← hp]; simp
      rw [Option.some.injEq]
      conv => rhs; rw [this, hx, List.drop_take, List.drop_drop]
      rw [hpl]
      congr 1
      omega
  · cases hc : h.chunk with
    | none => rw [hc] at r5; exact r5
    | some b =>
      rw [hc] at r5
      obtain ⟨blk, s, h1, h2, h3, h4, h5, h6, h7⟩ := r5
      have hxl := view_length r4 h2
      exact ⟨blk, _, h1, advance_slice h2 (by omega), h3, h4, by simp only; omega, by simp only; omega, h7⟩

theorem readCore_rel (junk : Nat → UInt8) (dec : Bytes → Bool → Dec Record) (off : Bytes → Bool → Nat)
    (hd : Located dec off) : ∀ (fuel : Nat) (h : Heap) (f : Stream) (st : Reader), HeapRel h f st →
    (h.readCore junk streamFiller dec off fuel f).1 = (Reader.readCore dec fuel st).1 ∧
    HeapRel (h.readCore junk streamFiller dec off fuel f).2.1 (h.readCore junk streamFiller dec off fuel f).2.2
      (Reader.readCore dec fuel st).2
  | 0, h, f, st, hr => ⟨rfl, hr⟩
  | fuel + 1, h, f, st, hr => by
    simp only [Heap.readCore, Reader.readCore]
    rw [hr.view, hr.eof]
    simp only
    cases hdx : dec st.chunk (!h.eof) with
    | ub w => exact ⟨rfl, hr⟩
    | fail e rest =>
      have := hr.advance (hd.fail _ _ _ _ hdx) h.next (Nat.le_refl _) h.held
      simp only
      refine ⟨by trivial, ?_⟩
      have hn := hr.next
      rcases st with ⟨⟨a, b, c, d⟩, ch⟩
      simp only at hn
      subst hn
      exact this
    | got r rest =>
      obtain ⟨h1, h2, h3, h4⟩ := hd.got _ _ _ _ hdx
      cases hsl : h.slice with
      | none =>
        have hv := hr.view
        simp only [Heap.view, hsl, Option.some.injEq] at hv
        rw [← hv] at h2
        simp at h2
      | some s =>
        have := hr.advance h1 h.next (Nat.le_refl _)
          ((⟨s.block, s.gen, s.off + off st.chunk (!h.eof), r.payload.length⟩, r.payload) :: h.held)
        simp only
        refine ⟨by trivial, ?_⟩
        have hn := hr.next
        rcases st with ⟨⟨a, b, c, d⟩, ch⟩
        simp only at hn
        subst hn
        exact this
    | more rest hint =>
      have ha := hr.advance (hd.more _ _ _ _ hdx) (growHint hint h.next hint) (growHint_ge _ _ _) h.held
      obtain ⟨y, cr', h', f', e1, e2, e3⟩ := readChunk_rel junk _ f _ ha
      simp only at e1 e2
      simp only
      rw [hr.eof] at e1
      rw [hr.next, e1]
      have e2' : Heap.readChunk junk streamFiller (h.hinted rest.length hint)
        rest f = (.ok (), h', f') := e2
      rw [e2']
      simp only
      rw [e3.view]
      simp only
      split
      · exact ⟨rfl, e3⟩
      · exact readCore_rel junk dec off hd fuel h' f' ⟨cr', y⟩ e3

theorem HeapRel.held {h : Heap} {f : Stream} {st : Reader} (hr : HeapRel h f st) (held : List (HSlice × Bytes)) :
    HeapRel { h with held := held } f st :=
  ⟨hr.stream, hr.next, hr.eof, hr.view, hr.eofc, hr.chunk, hr.fits⟩

theorem ops_rel (junk : Nat → UInt8) (dec : Bytes → Bool → Dec Record) (off : Bytes → Bool → Nat)
    (hd : Located dec off) : ∀ (os : List HeapOp) (h : Heap) (f : Stream) (st : Reader), HeapRel h f st →
    (h.ops junk streamFiller dec off f os).1 = plainReads dec st os
  | [], _, _, _, _ => rfl
  | .read fuel :: os, h, f, st, hr => by
    obtain ⟨h1, h2⟩ := readCore_rel junk dec off hd fuel h f st hr
    simp only [Heap.ops, Heap.op, plainReads]
    rw [h1, ops_rel junk dec off hd os _ _ _ h2]
  | .copy i :: os, h, f, st, hr => by
    simp only [Heap.ops, Heap.op, plainReads]
    cases h.held[i]? with
    | none => simp only; rw [ops_rel junk dec off hd os _ _ _ hr]
    | some r => simp only; rw [ops_rel junk dec off hd os _ _ _ (hr.held _)]
  | .release i :: os, h, f, st, hr => by
    simp only [Heap.ops, Heap.op, plainReads]
    rw [ops_rel junk dec off hd os _ _ _ (hr.held _)]

end Mlio
