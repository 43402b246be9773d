import Verif.Proofs.Estimate
import Verif.Spec.Estimate
import Verif.Props.Xxhash

namespace Mlio
open Spec

theorem zeros_countP (l : List Nat) : l.count 0 = l.length - ((List.range l.length).filter (fun i => l.getD i 0 ≠ 0)).length := by
  have h1 : l = (List.range l.length).map (fun i => l.getD i 0) := by
    apply List.ext_getElem
    · simp
    · intro i h1 h2
      simp [List.getD_eq_getElem?_getD, h1]
  have h2 : l.count 0 = (List.range l.length).countP (fun i => l.getD i 0 == 0) := by
    conv => lhs; rw [h1]
    rw [List.count, List.countP_map]
    rfl
  have h3 := List.length_eq_countP_add_countP (fun i => l.getD i 0 == 0) (l := List.range l.length)
  rw [List.length_range] at h3
  rw [h2, ← List.countP_eq_length_filter]
  have h4 : List.countP (fun i => decide (l.getD i 0 ≠ 0)) (List.range l.length) =
      List.countP (fun a => decide ¬(l.getD a 0 == 0) = true) (List.range l.length) := by
    apply List.countP_congr
    intro i _
    simp
  omega

/-- The registers that are hit are the buckets. -/
theorem sketch_nonzero {hs : Nat → Prop} {s : Hll} (hk : IsSketch 16 hs s) (i : Nat) (hi : i < 2 ^ 16) :
    s.regs.getD i 0 ≠ 0 ↔ ∃ h, hs h ∧ bucket 16 h = i := by
  constructor
  · intro h
    rcases hk.reached i hi with h0 | ⟨h', h1, h2, _⟩
    · exact absurd h0 h
    · exact ⟨h', h1, h2⟩
  · rintro ⟨h, h1, rfl⟩ h0
    obtain ⟨r, hr, hle⟩ := hk.bound h h1
    rw [h0] at hle
    rcases hr with ⟨_, h2⟩ | ⟨h2, _⟩ <;> omega

theorem bucketOf_lt (t : Bytes) : bucketOf t < 65536 := by
  have := UInt32.toNat_lt (XXH32.hash 0 t)
  unfold bucketOf
  omega

/-- The sketch of the texts. -/
def HoldsTexts (texts : List Bytes) (s : Hll) : Prop := IsSketch 16 (fun h => ∃ text ∈ texts, h = (XXH32.hash 0 text).toNat) s

theorem zeros_eq {texts : List Bytes} {s : Hll} {k : Nat} (hk : HoldsTexts texts s) (hb : InBuckets texts k) : s.zeros = 65536 - k := by
  obtain ⟨bs, hn, hl, hm⟩ := hb
  have hlen : s.regs.length = 65536 := hk.size
  unfold Hll.zeros
  rw [zeros_countP, hlen, ← hl]
  suffices h : ((List.range 65536).filter (fun i => s.regs.getD i 0 ≠ 0)).length = bs.length by rw [h]
  apply List.Perm.length_eq
  rw [List.perm_ext_iff_of_nodup (List.nodup_range.filter _) hn]
  intro i
  rw [List.mem_filter, List.mem_range, hm]
  constructor
  · rintro ⟨hi, h⟩
    obtain ⟨h', ⟨t, ht, rfl⟩, hb⟩ := (sketch_nonzero hk i hi).1 (by simpa using h)
    exact ⟨t, ht, hb⟩
  · rintro ⟨t, ht, rfl⟩
    refine ⟨bucketOf_lt t, ?_⟩
    have := (sketch_nonzero hk (bucketOf t) (bucketOf_lt t)).2 ⟨_, ⟨t, ht, rfl⟩, rfl⟩
    simpa using this

theorem regs_le {texts : List Bytes} {s : Hll} (hk : HoldsTexts texts s) : ∀ r ∈ s.regs, r ≤ 17 := by
  intro r hr
  obtain ⟨i, hi, rfl⟩ := List.mem_iff_getElem.1 hr
  have hlen : s.regs.length = 65536 := hk.size
  have hd : s.regs.getD i 0 = s.regs[i] := by simp [List.getD_eq_getElem?_getD, hi]
  rcases hk.reached i (by omega) with h0 | ⟨h, _, _, h2⟩
  · omega
  · rw [hd] at h2
    rcases h2 with ⟨_, h2⟩ | ⟨_, h2, _⟩ <;> omega

/-- The registers with the largest value are buckets of texts whose hashes end in zeros. -/
theorem count17_le {texts : List Bytes} {s : Hll} (hk : HoldsTexts texts s) (l : List Bytes)
    (hl : ∀ t ∈ texts, EndsInZeros t → t ∈ l) : s.regs.count 17 ≤ l.length := by
  have hlen : s.regs.length = 65536 := hk.size
  have h1 : s.regs = (List.range s.regs.length).map (fun i => s.regs.getD i 0) := by
    apply List.ext_getElem
    · simp
    · intro i h1 h2
      simp [List.getD_eq_getElem?_getD, h1]
  have h2 : s.regs.count 17 = ((List.range s.regs.length).filter (fun i => s.regs.getD i 0 == 17)).length := by
    rw [← List.countP_eq_length_filter]
    conv => lhs; rw [h1]
    rw [List.count, List.countP_map]
    rfl
  rw [h2, ← List.length_map (f := bucketOf) (as := l)]
  apply List.Subperm.length_le
  apply (List.nodup_range.filter _).subperm
  intro i hi
  rw [List.mem_filter, List.mem_range] at hi
  have h17 : s.regs.getD i 0 = 17 := by simpa using hi.2
  rcases hk.reached i (by omega) with h0 | ⟨h, ⟨t, ht, rfl⟩, hb, h2⟩
  · omega
  · rw [h17] at h2
    rcases h2 with ⟨h2, _⟩ | ⟨_, h2, _⟩
    · exact List.mem_map.2 ⟨t, hl t ht h2, hb⟩
    · omega

/-- Sketches of more texts have larger registers. -/
theorem sketch_mono {hs ht : Nat → Prop} {s t : Hll} (h1 : IsSketch 16 hs s) (h2 : IsSketch 16 ht t) (hsub : ∀ h, hs h → ht h) :
    List.Forall₂ (· ≤ ·) s.regs t.regs := by
  rw [List.forall₂_iff_get]
  refine ⟨h1.size.trans h2.size.symm, fun i hi hi' => ?_⟩
  have hd : s.regs.getD i 0 = s.regs.get ⟨i, hi⟩ := by simp [List.getD_eq_getElem?_getD, hi]
  have hd' : t.regs.getD i 0 = t.regs.get ⟨i, hi'⟩ := by simp [List.getD_eq_getElem?_getD, hi']
  rw [← hd, ← hd']
  rcases h1.reached i (by have := h1.size; omega) with h0 | ⟨h, hh, hb, hf⟩
  · omega
  · obtain ⟨r, hr, hle⟩ := h2.bound h (hsub h hh)
    rw [hb] at hle
    rwa [firstOne_unique hf hr]

end Mlio
