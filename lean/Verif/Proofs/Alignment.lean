import Verif.Spec.Alignment
import Verif.Proofs.ChunkHeap
import Verif.Proofs.Cuts
import Verif.Proofs.RecordIO
import Verif.Proofs.Parquet

/-!
# Alignment: proofs
-/

namespace Mlio
open Spec

theorem recordio_step (x : Bytes) (ig : Bool) :
    match recordioDecode x ig with
    | .got _ rest => 4 ∣ x.length - rest.length ∧ rest.length ≤ x.length
    | .more rest _ => rest = x
    | .fail _ rest => rest = x
    | .ub _ => True := by
  rw [recordioDecode_eq]
  split
  · rename_i h
    split at h
    · cases h
    · split at h <;> try (cases h; done)
      · split at h <;> cases h
      · split at h
        · split at h <;> cases h
        · rename_i hd _ hle
          injection h with h1 h2
          subst h2
          have := (align4_spec (headerPayloadSize hd) (by
            have : headerPayloadSize hd ≤ 2 ^ 29 - 1 := by unfold headerPayloadSize; exact Nat.and_le_right
            omega)).2.2
          rw [List.length_drop]
          refine ⟨?_, by omega⟩
          rw [Nat.sub_sub_self (by omega)]
          omega
  · rename_i h
    split at h
    · injection h with h1; exact h1.symm
    · split at h <;> try (cases h; done)
      · split at h
        · injection h with h1; exact h1.symm
        · cases h
      · split at h
        · split at h
          · injection h with h1; exact h1.symm
          · cases h
        · cases h
  · rename_i h
    split at h
    · cases h
    · split at h <;> try (cases h; done)
      · injection h with h1 h2; exact h2.symm
      · split at h
        · cases h
        · injection h with h1 h2; exact h2.symm
      · split at h
        · split at h
          · cases h
          · injection h with h1 h2; exact h2.symm
        · cases h
  · trivial

/-- The slice of the stream record reader starts at a multiple of 4. -/
def SliceAligned (h : Heap) : Prop := ∀ s, h.slice = some s → 4 ∣ s.off

theorem readChunk_aligned (junk : Nat → UInt8) (F : Filler) (h : Heap) (leftover : Bytes) (f : F.σ) (ha : SliceAligned h) :
    SliceAligned (h.readChunk junk F leftover f).2.1 := by
  unfold Heap.readChunk
  split
  · intro s hs; cases hs
  · rcases h.prepare junk leftover with ⟨blocks, b, next⟩
    simp only
    split
    · exact ha
    · split
      · exact ha
      · rename_i blk _ _
        rcases F.fill f (blk.data.length - leftover.length) with ⟨got, e, f'⟩
        unfold Heap.filled
        cases e with
        | threw e => exact ha
        | eof => intro s hs; cases hs; exact ⟨0, rfl⟩
        | full => intro s hs; cases hs; exact ⟨0, rfl⟩

theorem advance_aligned {h : Heap} {n : Nat} (ha : SliceAligned h) (hn : ∀ s, h.slice = some s → 4 ∣ s.len - n) :
    SliceAligned (h.advance n) := by
  intro s hs
  unfold Heap.advance at hs
  simp only [Option.map_eq_some_iff] at hs
  obtain ⟨s0, h1, rfl⟩ := hs
  have h2 := ha s0 h1
  have h3 := hn s0 h1
  simp only [HSlice.drop]
  exact Nat.dvd_add h2 h3

theorem readCore_aligned (junk : Nat → UInt8) (F : Filler) (off : Bytes → Bool → Nat) : ∀ (fuel : Nat) (h : Heap) (f : F.σ),
    SliceAligned h →
    SliceAligned (h.readCore junk F recordioDecode off fuel f).2.1 ∧
    ∀ q ∈ h.decoded junk F recordioDecode fuel f, 4 ∣ q.1.off
  | 0, h, f, ha => ⟨ha, by intro q hq; simp [Heap.decoded] at hq⟩
  | fuel + 1, h, f, ha => by
    unfold Heap.readCore Heap.decoded
    cases hv : h.view with
    | none => exact ⟨ha, by intro q hq; simp at hq⟩
    | some x =>
      simp only
      have hself : ∀ q ∈ h.slice.toList.map (fun s => (s, x)), 4 ∣ q.1.off := by
        intro q hq
        simp only [List.mem_map, Option.mem_toList] at hq
        obtain ⟨s, h1, rfl⟩ := hq
        exact ha s h1
      have hstep := recordio_step x (!h.eof)
      cases hd : recordioDecode x (!h.eof) with
      | ub w => exact ⟨ha, by simpa using hself⟩
      | fail e rest =>
        rw [hd] at hstep
        simp only at hstep
        refine ⟨advance_aligned ha fun s hs => ?_, by simpa using hself⟩
        rw [hstep, view_length hv hs, Nat.sub_self]
        exact ⟨0, rfl⟩
      | got r rest =>
        rw [hd] at hstep
        simp only at hstep
        refine ⟨?_, by simpa using hself⟩
        cases hsl : h.slice with
        | none => exact ha
        | some s =>
          simp only
          have := advance_aligned (n := rest.length) ha (fun s' hs => by rw [← view_length hv hs]; exact hstep.1)
          exact this
      | more rest hint =>
        rw [hd] at hstep
        simp only at hstep
        have hin : SliceAligned (h.hinted rest.length hint) := by
          refine advance_aligned (h := h) (n := rest.length) ha fun s hs => ?_
          rw [hstep, view_length hv hs, Nat.sub_self]
          exact ⟨0, rfl⟩
        have hrc := readChunk_aligned junk F _ rest f hin
        rcases hq : Heap.readChunk junk F (h.hinted rest.length hint) rest f with ⟨r, h2, f'⟩
        rw [hq] at hrc
        simp only [hq]
        cases r with
        | err e => exact ⟨hrc, by simpa using hself⟩
        | ub w => exact ⟨hrc, by simpa using hself⟩
        | ok u =>
          cases hv2 : h2.view with
          | none => simp only [hv2]; exact ⟨hrc, by simpa using hself⟩
          | some y =>
            simp only [hv2]
            have ih := readCore_aligned junk F off fuel h2 f' hrc
            split
            · exact ⟨hrc, by simpa using hself⟩
            · refine ⟨ih.1, fun q hq => ?_⟩
              rw [List.mem_append] at hq
              rcases hq with hq | hq
              · exact hself q hq
              · exact ih.2 q hq

theorem ops_aligned (junk : Nat → UInt8) (F : Filler) (off : Bytes → Bool → Nat) : ∀ (os : List HeapOp) (h : Heap) (f : F.σ),
    SliceAligned h → ∀ q ∈ h.opsDecoded junk F recordioDecode off f os, 4 ∣ q.1.off
  | [], h, f, ha, q, hq => by simp [Heap.opsDecoded] at hq
  | o :: os, h, f, ha, q, hq => by
    unfold Heap.opsDecoded at hq
    rw [List.mem_append] at hq
    cases o with
    | read fuel =>
      have := readCore_aligned junk F off fuel h f ha
      rcases hq with hq | hq
      · exact this.2 q hq
      · exact ops_aligned junk F off os _ _ this.1 q hq
    | copy i =>
      rcases hq with hq | hq
      · simp at hq
      · refine ops_aligned junk F off os _ _ ?_ q hq
        show SliceAligned (match h.held[i]? with
          | some r => { h with held := r :: h.held }
          | none => h)
        split <;> exact ha
    | release i =>
      rcases hq with hq | hq
      · simp at hq
      · exact ops_aligned junk F off os { h with held := h.held.eraseIdx i } f (fun s hs => ha s hs) q hq

theorem recordioLoads_dvd (x : Bytes) : ∀ p ∈ recordioLoads x, 4 ∣ p := by
  intro p hp
  unfold recordioLoads at hp
  split at hp <;> simp at hp <;> omega

theorem recordioLoads_first (x : Bytes) (h : 8 ≤ x.length) : 0 ∈ recordioLoads x := by
  unfold recordioLoads
  match x, h with
  | b0 :: b1 :: b2 :: b3 :: c0 :: c1 :: c2 :: c3 :: _, _ =>
    simp only [decodeHeader]
    by_cases hm : le32 b0 b1 b2 b3 ≠ recordioMagic <;> simp [hm]

/-! ## Memory of stores -/

/-- The chunk starts at a multiple of 4, or is empty. -/
def OwnAligned (z : OwnReader) : Prop := 4 ∣ z.start ∨ z.mem.drop z.start = []

theorem own_aligned (off : Bytes → Bool → Nat) : ∀ (fuel : Nat) (z : OwnReader), OwnAligned z →
    OwnAligned (z.readCore recordioDecode off fuel).2 ∧ ∀ q ∈ z.decoded recordioDecode fuel, 4 ∣ q.1 ∨ q.2 = []
  | 0, z, h => ⟨h, by intro q hq; simp [OwnReader.decoded] at hq⟩
  | fuel + 1, z, h => by
    unfold OwnReader.readCore OwnReader.decoded
    have hstep := recordio_step (z.mem.drop z.start) z.pending
    have hnext : ∀ rest : Bytes, rest.length ≤ (z.mem.drop z.start).length → 4 ∣ (z.mem.drop z.start).length - rest.length →
        OwnAligned { z with start := z.mem.length - rest.length } := by
      intro rest hl hdv
      by_cases he : z.mem.drop z.start = []
      · right
        rw [he] at hl
        have : rest.length = 0 := by simpa using hl
        show z.mem.drop (z.mem.length - rest.length) = []
        rw [this]
        simp
      · left
        have hst := h.resolve_right he
        show 4 ∣ z.mem.length - rest.length
        have hp := List.length_pos_iff.2 he
        rw [List.length_drop] at hl hdv hp
        have : z.mem.length - rest.length = z.start + (z.mem.length - z.start - rest.length) := by omega
        rw [this]
        exact Nat.dvd_add hst hdv
    cases hd : recordioDecode (z.mem.drop z.start) z.pending with
    | ub w => exact ⟨h, by intro q hq; simp at hq; subst hq; exact h⟩
    | got r rest =>
      rw [hd] at hstep
      simp only at hstep
      exact ⟨hnext rest hstep.2 hstep.1, by intro q hq; simp at hq; subst hq; exact h⟩
    | fail e rest =>
      rw [hd] at hstep
      simp only at hstep
      exact ⟨hnext rest (by rw [hstep]; exact Nat.le_refl _) (by rw [hstep, Nat.sub_self]; exact ⟨0, rfl⟩),
        by intro q hq; simp at hq; subst hq; exact h⟩
    | more rest hint =>
      simp only
      cases hp : z.pending with
      | true =>
        simp only [if_true]
        have ih := own_aligned off fuel { z with pending := false, start := 0 } (.inl ⟨0, rfl⟩)
        refine ⟨ih.1, fun q hq => ?_⟩
        rw [List.mem_cons] at hq
        rcases hq with rfl | hq
        · exact h
        · exact ih.2 q hq
      | false =>
        refine ⟨.inr (by simp), ?_⟩
        intro q hq
        simp at hq
        subst hq; exact h

theorem own_alignedN (off : Bytes → Bool → Nat) : ∀ (n : Nat) (z : OwnReader), OwnAligned z →
    ∀ q ∈ z.decodedN recordioDecode off n, 4 ∣ q.1 ∨ q.2 = []
  | 0, z, h, q, hq => by simp [OwnReader.decodedN] at hq
  | n + 1, z, h, q, hq => by
    unfold OwnReader.decodedN at hq
    rw [List.mem_append] at hq
    have := own_aligned off 3 z h
    rcases hq with hq | hq
    · exact this.2 q hq
    · exact own_alignedN off n _ this.1 q hq

/-! ## Parquet -/

theorem footer_at_8 (b : Bytes) (h : 12 ≤ b.length) : parquetIsFooter b ((8 : Nat) : Int) = .ok false := by
  obtain ⟨f, h1, h2⟩ := isFooter_ok b 8 (Nat.le_refl _) (by omega)
  rw [h1]
  cases f with
  | false => rfl
  | true =>
    obtain ⟨size, h3, h4, -⟩ := h2.1 rfl
    omega

theorem scanLoads_two (b : Bytes) (fuel pos : Nat) (h : pos + 5 ≤ b.length) (hf : parquetIsFooter b pos = .ok false ) :
    pos ∈ parquetScanLoads b (fuel + 2) pos ∧ pos + 1 ∈ parquetScanLoads b (fuel + 2) pos := by
  have h1 : (pos : Int) ≤ (b.length : Int) - 4 := by omega
  have h2 : ((pos + 1 : Nat) : Int) ≤ (b.length : Int) - 4 := by omega
  have hin : ∀ (f p : Nat), (p : Int) ≤ (b.length : Int) - 4 → p ∈ parquetScanLoads b (f + 1) p := by
    intro f p hp
    unfold parquetScanLoads
    rw [if_pos hp]
    split
    · split <;> simp
    · simp
  refine ⟨hin _ _ h1, ?_⟩
  unfold parquetScanLoads
  rw [if_pos h1, hf]
  split
  · simp [hin fuel (pos + 1) h2]
  · simp [hin fuel (pos + 1) h2]


theorem parquetLoads_two (b : Bytes) (hm : b.take 4 = par1) (h : 13 ≤ b.length) : 8 ∈ parquetLoads b ∧ 9 ∈ parquetLoads b := by
  unfold parquetLoads
  obtain ⟨m, h1, h2⟩ : ∃ m, parquetIsMagic b 0 = .ok m ∧ (m = true ↔ (b.drop 0).take 4 = par1) := isMagic_ok b 0 (by omega)
  have hmt : m = true := h2.2 (by simpa using hm)
  subst hmt
  rw [if_neg (by omega), h1]
  simp only
  rw [if_neg (by omega)]
  obtain ⟨f, hf⟩ : ∃ f, b.length = f + 2 := ⟨b.length - 2, by omega⟩
  have := scanLoads_two b f 8 (by omega) (footer_at_8 b (by omega))
  rw [← hf] at this
  exact ⟨List.mem_cons_of_mem _ this.1, List.mem_cons_of_mem _ this.2⟩

/-- The positions read by the scanning loop. -/
theorem scanLoads_iff (b : Bytes) (hm : b.take 4 = par1) (p : Nat) : ∀ (fuel pos : Nat), 8 ≤ pos → b.length ≤ fuel + pos + 3 →
    (p ∈ parquetScanLoads b fuel pos ↔ ∃ q, pos ≤ q ∧ q + 4 ≤ b.length ∧ (∀ q', pos ≤ q' → q' < q → ¬ LooksParquet (b.take (q' + 4))) ∧
      (p = q ∨ p + 4 = q ∧ (b.drop q).take 4 = par1)) := by
  intro fuel
  induction fuel with
  | zero =>
    intro pos h8 hf
    simp only [parquetScanLoads, List.not_mem_nil, false_iff]
    rintro ⟨q, h1, h2, -⟩
    omega
  | succ fuel ih =>
    intro pos h8 hf
    unfold parquetScanLoads
    by_cases hp : (pos : Int) ≤ (b.length : Int) - 4
    · rw [if_pos hp]
      obtain ⟨m, hm1, hm2⟩ := isMagic_ok b pos (by omega)
      obtain ⟨f, hf1, hf2⟩ := isFooter_ok b pos h8 (by omega)
      have hlooks := looks_iff b pos h8 (by omega) hm
      rw [← hf2, ← hm2] at hlooks
      have ih := ih (pos + 1) (by omega) (by omega)
      have step : ¬ LooksParquet (b.take (pos + 4)) → (∀ l, (p ∈ l ↔ p = pos ∨ p + 4 = pos ∧ m = true) →
          (p ∈ l ++ parquetScanLoads b fuel (pos + 1) ↔
            ∃ q, pos ≤ q ∧ q + 4 ≤ b.length ∧ (∀ q', pos ≤ q' → q' < q → ¬ LooksParquet (b.take (q' + 4))) ∧
              (p = q ∨ p + 4 = q ∧ (b.drop q).take 4 = par1))) := by
        intro hno l hl
        rw [List.mem_append, hl, ih]
        constructor
        · rintro (h | ⟨q, h1, h2, h3, h4⟩)
          · refine ⟨pos, Nat.le_refl _, by omega, fun q' h1 h2 => by omega, ?_⟩
            rw [← hm2]; exact h
          · refine ⟨q, by omega, h2, fun q' g1 g2 => ?_, h4⟩
            by_cases g : q' = pos
            · rw [g]; exact hno
            · exact h3 q' (by omega) g2
        · rintro ⟨q, h1, h2, h3, h4⟩
          by_cases g : q = pos
          · subst g
            left
            rw [← hm2] at h4; exact h4
          · exact .inr ⟨q, by omega, h2, fun q' g1 g2 => h3 q' (by omega) g2, h4⟩
      rw [hm1]
      cases m with
      | false =>
        have := step (fun h => by simpa using (hlooks.1 h).1) [pos] (by simp)
        simpa using this
      | true =>
        simp only
        rw [hf1]
        have hl : p ∈ [pos, pos - 4] ↔ p = pos ∨ p + 4 = pos ∧ true = true := by
          simp only [List.mem_cons, List.not_mem_nil, or_false, and_true]
          omega
        cases f with
        | false =>
          have := step (fun h => by simpa using (hlooks.1 h).2) [pos, pos - 4] hl
          simpa using this
        | true =>
          simp only
          rw [hl]
          constructor
          · intro h
            refine ⟨pos, Nat.le_refl _, by omega, fun q' h1 h2 => by omega, ?_⟩
            rw [← hm2]; exact h
          · rintro ⟨q, h1, h2, h3, h4⟩
            by_cases g : q = pos
            · subst g
              rw [← hm2] at h4; exact h4
            · exact absurd (hlooks.2 ⟨rfl, rfl⟩) (h3 pos (Nat.le_refl _) (by omega))
    · rw [if_neg hp]
      simp only [List.not_mem_nil, false_iff]
      rintro ⟨q, h1, h2, -⟩
      omega

theorem le32_magic (b0 b1 b2 b3 : UInt8) : le32 b0 b1 b2 b3 = recordioMagic ↔ [b0, b1, b2, b3] = [0x0A, 0x23, 0xD7, 0xCE] := by
  have h0 := b0.toNat_lt
  have h1 := b1.toNat_lt
  have h2 := b2.toNat_lt
  have h3 := b3.toNat_lt
  simp only [le32, recordioMagic, List.cons.injEq, and_true, ← UInt8.toNat_inj]
  show _ ↔ b0.toNat = 0x0A ∧ b1.toNat = 0x23 ∧ b2.toNat = 0xD7 ∧ b3.toNat = 0xCE
  omega

end Mlio
