import Verif.Spec.Xxhash

namespace Mlio
open Spec XXH32

theorem shift_onto15 (y : UInt32) : ∃ x : UInt32, x ^^^ (x >>> 15) = y := by
  refine ⟨y ^^^ (y >>> 15) ^^^ (y >>> 30), ?_⟩
  apply UInt32.toBitVec_inj.1
  ext i hi
  simp [UInt32.toBitVec_xor, UInt32.toBitVec_shiftRight, BitVec.getElem_xor]
  rw [show 15 + (15 + i) = 30 + i by omega, BitVec.getLsbD_of_ge _ (30 + (15 + i)) (by omega)]
  cases y.toBitVec[i] <;> cases y.toBitVec.getLsbD (15 + i) <;> cases y.toBitVec.getLsbD (30 + i) <;> rfl

theorem shift_onto13 (y : UInt32) : ∃ x : UInt32, x ^^^ (x >>> 13) = y := by
  refine ⟨y ^^^ (y >>> 13) ^^^ (y >>> 26), ?_⟩
  apply UInt32.toBitVec_inj.1
  ext i hi
  simp [UInt32.toBitVec_xor, UInt32.toBitVec_shiftRight, BitVec.getElem_xor]
  rw [show 13 + (13 + i) = 26 + i by omega, BitVec.getLsbD_of_ge _ (26 + (13 + i)) (by omega)]
  cases y.toBitVec[i] <;> cases y.toBitVec.getLsbD (13 + i) <;> cases y.toBitVec.getLsbD (26 + i) <;> rfl

theorem shift_onto16 (y : UInt32) : ∃ x : UInt32, x ^^^ (x >>> 16) = y := by
  refine ⟨y ^^^ (y >>> 16), ?_⟩
  apply UInt32.toBitVec_inj.1
  ext i hi
  simp [UInt32.toBitVec_xor, UInt32.toBitVec_shiftRight, BitVec.getElem_xor]
  rw [BitVec.getLsbD_of_ge _ (16 + (16 + i)) (by omega)]
  cases y.toBitVec[i] <;> cases y.toBitVec.getLsbD (16 + i) <;> rfl

theorem mul_onto (p q : UInt32) (h : q * p = 1) (y : UInt32) : ∃ x, x * p = y :=
  ⟨y * q, by rw [UInt32.mul_assoc, h, UInt32.mul_one]⟩

theorem rotl_onto (y : UInt32) : ∃ x, rotl x 17 = y := by
  refine ⟨⟨y.toBitVec.rotateLeft 15⟩, ?_⟩
  apply UInt32.toBitVec_inj.1
  unfold rotl
  ext i hi
  simp [BitVec.getElem_rotateLeft]
  split
  · rw [dif_neg (by omega)]
  · rw [dif_pos (by omega)]
    congr 1
    omega

theorem word_onto (w : UInt32) : ∃ a b c d, word a b c d = w := by
  refine ⟨⟨w.toBitVec.extractLsb' 0 8⟩, ⟨w.toBitVec.extractLsb' 8 8⟩, ⟨w.toBitVec.extractLsb' 16 8⟩, ⟨w.toBitVec.extractLsb' 24 8⟩, ?_⟩
  apply UInt32.toBitVec_inj.1
  unfold word
  simp only
  rw [BitVec.extractLsb'_append_extractLsb'_eq_extractLsb' (by rfl), BitVec.extractLsb'_append_extractLsb'_eq_extractLsb' (by rfl),
    BitVec.extractLsb'_append_extractLsb'_eq_extractLsb' (by rfl)]
  exact BitVec.extractLsb'_eq_self

theorem avalanche_onto (y : UInt32) : ∃ x, avalanche x = y := by
  obtain ⟨a, ha⟩ := shift_onto16 y
  obtain ⟨b, hb⟩ := mul_onto PRIME32_3 0xa89ed915 (by decide) a
  obtain ⟨c, hc⟩ := shift_onto13 b
  obtain ⟨d, hd⟩ := mul_onto PRIME32_2 0xb6c92f47 (by decide) c
  obtain ⟨e, he⟩ := shift_onto15 d
  exact ⟨e, by simp only [avalanche, he, hd, hc, hb, ha]⟩

/-- Every number of 32 bits is the hash of a text of four bytes. -/
theorem hash_onto (h : UInt32) : ∃ t : Bytes, t.length = 4 ∧ hash 0 t = h := by
  obtain ⟨a, ha⟩ := avalanche_onto h
  obtain ⟨b, hb⟩ := mul_onto PRIME32_4 0xa0fe3bcf (by decide) a
  obtain ⟨c, hc⟩ := rotl_onto b
  obtain ⟨d, hd⟩ := mul_onto PRIME32_3 0xa89ed915 (by decide) (c - (0 + PRIME32_5 + 4))
  obtain ⟨w, x, y, z, hw⟩ := word_onto d
  refine ⟨[w, x, y, z], rfl, ?_⟩
  have e : (0 + PRIME32_5 + UInt32.ofNat 4) + d * PRIME32_3 = c := by
    rw [hd]
    show (0 + PRIME32_5 + 4) + (c - (0 + PRIME32_5 + 4)) = c
    rw [UInt32.add_comm, UInt32.sub_add_cancel]
  simp only [XXH32.hash, List.length_cons, List.length_nil, Nat.reduceAdd, Nat.reduceLT, reduceIte, remaining, hw, e, hc, hb, ha]

end Mlio
