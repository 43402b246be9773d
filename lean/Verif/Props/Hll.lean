import Verif.Proofs.Hll

/-!
# Cardinality estimators: C53
-/

namespace Mlio
open Spec

/-- C53: for every width, every hash function and every sequence of values (given by their hashes) the estimator is the
sketch of the set of values.  Missing for compilers with `__builtin_clz`: values whose hash has no one after the bucket,
see `C53_clz_violated`. -/
theorem C53_sketch_partial (builtin : Bool) (b : Nat) (hb : HllWidth b) (hs : List Nat) (hh : Hashes builtin b hs) :
    ∃ s0 s, Hll.new b = .ok s0 ∧ s0.addAll builtin hs = .ok s ∧ IsSketch b (· ∈ hs) s := by
  obtain ⟨s0, e0, k0⟩ := new_sketch b hb
  obtain ⟨s, e, k⟩ := addAll_sketch builtin b hb hs _ s0 k0 hh
  exact ⟨s0, s, e0, e, isSketch_congr k (by simp)⟩

/-- C53: without the builtin the restriction falls away. -/
theorem C53_sketch_portable (b : Nat) (hb : HllWidth b) (hs : List Nat) (hh : ∀ h ∈ hs, h < 2 ^ 32) :
    ∃ s0 s, Hll.new b = .ok s0 ∧ s0.addAll false hs = .ok s ∧ IsSketch b (· ∈ hs) s :=
  C53_sketch_partial false b hb hs (fun h hm => ⟨hh h hm, fun e => by cases e⟩)

/-- C53: order and repetition do not matter, and neither does the variant of the code. -/
theorem C53_set (builtin builtin' : Bool) (b : Nat) (hb : HllWidth b) (hs hs' : List Nat) (hh : Hashes builtin b hs)
    (hh' : Hashes builtin' b hs') (hset : ∀ h, h ∈ hs ↔ h ∈ hs') (s0 : Hll) (hnew : Hll.new b = .ok s0) :
    ∃ s, s0.addAll builtin hs = .ok s ∧ s0.addAll builtin' hs' = .ok s := by
  obtain ⟨s0', s, e0, e, k⟩ := C53_sketch_partial builtin b hb hs hh
  obtain ⟨s0'', s', e0', e', k'⟩ := C53_sketch_partial builtin' b hb hs' hh'
  rw [hnew] at e0 e0'
  cases e0; cases e0'
  have := sketch_unique hb k (isSketch_congr k' (fun x => (hset x).symm))
  exact ⟨s, e, by rw [this]; exact e'⟩

/-- C53: sketches are determined by the set of values, and their registers stay in range. -/
theorem C53_range (b : Nat) (hb : HllWidth b) (hs : Nat → Prop) (s : Hll) (h : IsSketch b hs s) :
    (∀ t, IsSketch b hs t → t = s) ∧ ∀ r ∈ s.regs, r ≤ 33 - b := by
  refine ⟨fun t ht => sketch_unique hb ht h, fun r hr => ?_⟩
  obtain ⟨i, hi, rfl⟩ := List.mem_iff_getElem.1 hr
  have hi2 : i < 2 ^ b := by rw [← h.size]; exact hi
  have key := h.reached i hi2
  simp only [List.getD, List.getElem?_eq_getElem hi, Option.getD_some] at key
  rcases key with h0 | ⟨x, _, _, hf⟩
  · omega
  · exact (firstOne_pos hb hf).2

/-- C53: merging never loses anything, is refused for different widths, and gives the estimator of the union exactly if
no register of the first that is smaller than that of the second has a bit the other one lacks. -/
theorem C53_merge_partial (b b' : Nat) (hb : HllWidth b) (hb' : HllWidth b') (hs ht : Nat → Prop) (s t : Hll) (h1 : IsSketch b hs s)
    (h2 : IsSketch b' ht t) :
    (b ≠ b' → s.merge t = .err .invalidArgument) ∧
    (b = b' → ∃ m u, s.merge t = .ok m ∧ IsSketch b (fun h => hs h ∨ ht h) u ∧ m.b = b ∧ m.regs.length = 2 ^ b ∧
      (∀ i, u.regs.getD i 0 ≤ m.regs.getD i 0) ∧
      (m = u ↔ ∀ i, s.regs.getD i 0 < t.regs.getD i 0 → s.regs.getD i 0 ||| t.regs.getD i 0 = t.regs.getD i 0)) := by
  constructor
  · intro hne
    unfold Hll.merge
    rw [if_pos]
    rw [h1.size, h2.size]
    exact fun e => hne ((Nat.pow_right_inj (by decide)).1 e)
  · rintro rfl
    have hlen : s.regs.length = t.regs.length := by rw [h1.size, h2.size]
    have hget : ∀ (f : Nat → Nat → Nat), f 0 0 = 0 → ∀ i, (List.zipWith f s.regs t.regs).getD i 0 = f (s.regs.getD i 0) (t.regs.getD i 0) := by
      intro f hf i
      simp only [List.getD, List.getElem?_zipWith]
      rcases Nat.lt_or_ge i s.regs.length with h | h
      · simp [List.getElem?_eq_getElem h, List.getElem?_eq_getElem (hlen ▸ h)]
      · simp [List.getElem?_eq_none h, List.getElem?_eq_none (hlen ▸ h), hf]
    have hm := hget (fun x y => if x < y then x ||| y else x) rfl
    have hu := hget max rfl
    refine ⟨{ s with regs := List.zipWith (fun x y => if x < y then x ||| y else x) s.regs t.regs },
      { s with regs := List.zipWith max s.regs t.regs }, ?_, ⟨h1.width, ?_, ?_, ?_⟩, h1.width, ?_, ?_, ?_⟩
    · simp [Hll.merge, hlen]
    · simp [h1.size, h2.size]
    · rintro h (hh | hh)
      · obtain ⟨r, a, c⟩ := h1.bound h hh
        exact ⟨r, a, by simp only [hu]; omega⟩
      · obtain ⟨r, a, c⟩ := h2.bound h hh
        exact ⟨r, a, by simp only [hu]; omega⟩
    · intro i hi
      simp only [hu]
      rcases Nat.le_total (s.regs.getD i 0) (t.regs.getD i 0) with hle | hle
      · rw [Nat.max_eq_right hle]
        rcases h2.reached i hi with h | ⟨x, a, c⟩
        · exact Or.inl h
        · exact Or.inr ⟨x, Or.inr a, c⟩
      · rw [Nat.max_eq_left hle]
        rcases h1.reached i hi with h | ⟨x, a, c⟩
        · exact Or.inl h
        · exact Or.inr ⟨x, Or.inl a, c⟩
    · simp [h1.size, h2.size]
    · intro i
      simp only [hu, hm]
      split
      · have := Nat.right_le_or (n := s.regs.getD i 0) (m := t.regs.getD i 0); omega
      · omega
    · constructor
      · intro e i hlt
        have e1 := congrArg (fun x => x.regs.getD i 0) e
        simp only [hu, hm, if_pos hlt] at e1
        rw [e1]; omega
      · intro hall
        have e : List.zipWith (fun x y => if x < y then x ||| y else x) s.regs t.regs = List.zipWith max s.regs t.regs := by
          apply ext_getD (by simp)
          intro i
          rw [hm, hu]
          by_cases hlt : s.regs.getD i 0 < t.regs.getD i 0
          · rw [if_pos hlt, hall i hlt]; omega
          · rw [if_neg hlt]; omega
        rw [e]

/-- C53: an estimator that was cleared is as new. -/
theorem C53_clear (b : Nat) (hb : HllWidth b) (hs : Nat → Prop) (s : Hll) (h : IsSketch b hs s) : Hll.new b = .ok s.clear := by
  have hn : Hll.new b = .ok ⟨b, List.replicate (2 ^ b) 0⟩ := by
    obtain ⟨h4, h30⟩ := hb
    unfold Hll.new; rw [if_neg (by omega), if_neg (by omega)]
  rw [hn]
  unfold Hll.clear
  rw [List.map_const', h.size, ← h.width]

/-- Hashes that meet the conditions, and what they give: buckets 1 and 2, the second one twice. -/
example : Hashes true 4 [0x10000001, 0x28000000, 0x20400000] ∧ HllWidth 4 := by
  refine ⟨?_, by unfold HllWidth; omega⟩
  intro h hm
  simp only [List.mem_cons, List.not_mem_nil, or_false] at hm
  rcases hm with rfl | rfl | rfl <;> decide

example : (Hll.mk 4 (List.replicate 16 0)).addAll true [0x10000001, 0x28000000, 0x20400000] =
    .ok ⟨4, [0, 28, 6, 0, 0, 0, 0, 0, 0, 0, 0, 0, 0, 0, 0, 0]⟩ := by decide

/-- C53: widths that an estimator cannot have are refused with an error, as long as they are below 32. -/
theorem C53_width_partial (b : Nat) (hb : ¬HllWidth b) (h : b < 32) : Hll.new b = .err .invalidArgument := by
  unfold HllWidth at hb
  unfold Hll.new
  rw [if_neg (by omega), if_pos (by omega)]

example : ¬HllWidth 3 ∧ ¬HllWidth 31 := by unfold HllWidth; omega

/-- C53 fails for greater ones: the registers are allocated before the width is checked, and the shift is undefined. -/
theorem C53_width_violated (b : Nat) (h : 32 ≤ b) : ∃ w, Hll.new b = .ub w := by
  unfold Hll.new
  rw [if_pos h]
  exact ⟨_, rfl⟩

/-- C53 fails with `__builtin_clz` for a value whose hash has only zeros after the bucket: the behaviour is undefined. -/
theorem C53_clz_violated : ∃ h, h < 2 ^ 32 ∧ ∃ s0, Hll.new 4 = .ok s0 ∧ s0.addAll true [h] = .ub "__builtin_clz(0)" :=
  ⟨0x30000000, by decide, ⟨4, List.replicate 16 0⟩, rfl, by decide⟩

/-- C53 fails for merging: registers are combined with "or", so that 1 and 2 give 3. -/
theorem C53_merge_violated : ∃ s t u : Hll, (Hll.mk 4 (List.replicate 16 0)).addAll true [0x18000000] = .ok s ∧
    (Hll.mk 4 (List.replicate 16 0)).addAll true [0x14000000] = .ok t ∧
    (Hll.mk 4 (List.replicate 16 0)).addAll true [0x18000000, 0x14000000] = .ok u ∧
    s.merge t = .ok ⟨4, [0, 3, 0, 0, 0, 0, 0, 0, 0, 0, 0, 0, 0, 0, 0, 0]⟩ ∧
    u = ⟨4, [0, 2, 0, 0, 0, 0, 0, 0, 0, 0, 0, 0, 0, 0, 0, 0]⟩ :=
  ⟨⟨4, [0, 1, 0, 0, 0, 0, 0, 0, 0, 0, 0, 0, 0, 0, 0, 0]⟩, ⟨4, [0, 2, 0, 0, 0, 0, 0, 0, 0, 0, 0, 0, 0, 0, 0, 0]⟩, _,
    by decide, by decide, by decide, by decide, rfl⟩

/-- Merging can leave the range of registers: 3 and 28 give 31. -/
theorem C53_merge_range_violated : ∃ s t : Hll, (Hll.mk 4 (List.replicate 16 0)).addAll true [0x12000000] = .ok s ∧
    (Hll.mk 4 (List.replicate 16 0)).addAll true [0x10000001] = .ok t ∧
    ∃ m, s.merge t = .ok m ∧ m.regs.getD 1 0 = 31 :=
  ⟨⟨4, [0, 3, 0, 0, 0, 0, 0, 0, 0, 0, 0, 0, 0, 0, 0, 0]⟩, ⟨4, [0, 28, 0, 0, 0, 0, 0, 0, 0, 0, 0, 0, 0, 0, 0, 0]⟩,
    by decide, by decide, _, rfl, by decide⟩

end Mlio
