import Verif.Spec.Allocators
import Verif.Props.Memory

/-!
# C98: where memory comes from
-/

namespace Mlio

theorem limit_eq (ram t : Nat) : (if t = 0 then defaultThreshold ram else t) = Spec.limit ram t := by
  unfold Spec.limit defaultThreshold
  by_cases ht : t = 0
  · simp only [ht, if_true]
    by_cases hr : ram = 0
    · simp [hr]
    · by_cases hb : 4 * 536870912 ≤ ram
      · simp [hr]; split <;> omega
      · simp [hr, hb]; omega
  · simp [ht]

/-- C98: a block that is allocated with more bytes than the threshold takes none of the heap; other blocks are on the
heap. -/
theorem C98_allocate (junk : Nat → UInt8) (ram t size : Nat) :
    ((newFileBacked ram t).allocate junk size).onHeap = if size > Spec.limit ram t then 0 else size := by
  unfold newFileBacked
  rw [limit_eq]
  have h := (C55_allocate junk (.fileBacked (Spec.limit ram t)) size).1
  unfold Allocator.allocate at h ⊢
  simp only at h ⊢
  split
  · rfl
  · rename_i hs
    rw [if_neg hs] at h
    simpa [Block.onHeap] using h

theorem resizes_heap (junk : Nat → UInt8) (T : Nat) : ∀ (sizes : List Nat) (b b' : Block),
    (b.kind = .hybrid false T ∨ b.onHeap = 0 ∧ (b.kind = .fileBacked ∨ b.kind = .hybrid true T)) →
    b.resizes junk sizes = .ok b' →
    b'.onHeap = if b.kind = .hybrid false T ∧ ∀ s ∈ (b.data.length :: sizes).dropLast, s ≤ T
      then (b.data.length :: sizes).getLast (by simp) else 0
  | [], b, b', hk, h => by
    simp only [Block.resizes, Res.ok.injEq] at h
    subst h
    rcases hk with hk | ⟨h0, hk | hk⟩
    · simp [Block.onHeap, hk]
    · simp [h0, hk]
    · simp [h0, hk]
  | s :: ss, ⟨kind, data⟩, b', hk, h => by
    simp only [Block.resizes] at h
    rcases hk with hk | ⟨h0, hk | hk⟩
    · simp only at hk
      subst hk
      by_cases hT : data.length > T
      · simp only [Block.resize, hT, if_true] at h
        by_cases hs : data.length > s
        · simp [hs] at h
        · simp only [hs, if_false] at h
          have := resizes_heap junk T ss _ b' (.inr ⟨by simp [Block.onHeap], .inr rfl⟩) h
          rw [this]
          have h2 : ¬ ∀ x ∈ (data.length :: s :: ss).dropLast, x ≤ T := by
            intro hx
            have := hx data.length (by simp)
            omega
          rw [if_neg (by simp), if_neg (fun hx => h2 hx.2)]
      · simp only [Block.resize, hT, if_false] at h
        have := resizes_heap junk T ss _ b' (.inl rfl) h
        rw [this, (reallocBytes_spec junk data s).1]
        simp only [true_and]
        have hd : (data.length :: s :: ss).dropLast = data.length :: (s :: ss).dropLast := by simp
        simp only [hd, List.mem_cons, forall_eq_or_imp]
        have hT' : data.length ≤ T := by omega
        simp [hT']
    · simp only at hk
      subst hk
      simp only [Block.resize] at h
      have := resizes_heap junk T ss _ b' (.inr ⟨by simp [Block.onHeap], .inl rfl⟩) h
      rw [this]; simp
    · simp only at hk
      subst hk
      simp only [Block.resize] at h
      have := resizes_heap junk T ss _ b' (.inr ⟨by simp [Block.onHeap], .inr rfl⟩) h
      rw [this]; simp

/-- C98 for blocks that are resized, any number of times and to any sizes: nothing of the block is on the heap any more,
once it had been larger than the threshold before it was resized.  Missing: the block after the resizing that takes it
beyond the threshold (`C98_grow_violated`). -/
theorem C98_resize_partial (junk : Nat → UInt8) (ram t size : Nat) (sizes : List Nat) (b : Block)
    (h : ((newFileBacked ram t).allocate junk size).resizes junk sizes = .ok b) :
    b.onHeap = if size ≤ Spec.limit ram t ∧ ∀ s ∈ (size :: sizes).dropLast, s ≤ Spec.limit ram t
      then (size :: sizes).getLast (by simp) else 0 := by
  unfold newFileBacked at h
  rw [limit_eq] at h
  have hl := (C55_allocate junk (.fileBacked (Spec.limit ram t)) size).1
  unfold Allocator.allocate at h hl
  simp only at h hl
  by_cases hs : size > Spec.limit ram t
  · rw [if_pos hs] at h
    rw [resizes_heap junk (Spec.limit ram t) sizes _ b (.inr ⟨rfl, .inl rfl⟩) h]
    have : ¬ size ≤ Spec.limit ram t := by omega
    simp [this]
  · rw [if_neg hs] at h hl
    simp only at hl
    rw [resizes_heap junk (Spec.limit ram t) sizes _ b (.inl rfl) h]
    have : size ≤ Spec.limit ram t := by omega
    simp [hl, this]

/-- A block that grows beyond the threshold stays on the heap, with all of its bytes, whatever the sizes are. -/
theorem C98_grow_violated (junk : Nat → UInt8) (ram t size size' : Nat) (h : size ≤ Spec.limit ram t)
    (h' : Spec.limit ram t < size') :
    ∃ b, ((newFileBacked ram t).allocate junk size).resizes junk [size'] = .ok b ∧ b.onHeap = size' ∧
      Spec.limit ram t < b.onHeap := by
  obtain ⟨b, hb, _⟩ := C55_growing junk [size'] ((newFileBacked ram t).allocate junk size)
    (C55_allocate junk _ size).2 (by rw [(C55_allocate junk _ size).1]; simp; omega)
  have := C98_resize_partial junk ram t size [size'] b hb
  have hx : b.onHeap = size' := by rw [this]; simp [h]
  exact ⟨b, hb, hx, by omega⟩

theorem lib_calls (junk : Nat → UInt8) (ram : Nat) (d : Allocator) : ∀ (cs : List LibCall) (a : Option Allocator),
    (∀ c ∈ cs, c ≠ .set none) →
    Lib.calls junk ram ⟨some (a.getD d), true⟩ cs =
      .ok ((Spec.served d a cs).map fun p => p.1.allocate junk p.2)
  | [], _, _ => rfl
  | .initialize :: cs, a, h => by
    have ih := lib_calls junk ram d cs a (fun c hc => h c (by simp [hc]))
    simp [Lib.calls, Lib.call, ih, Spec.served]
  | .set none :: cs, a, h => absurd rfl (h _ (by simp))
  | .set (some b) :: cs, a, h => by
    have ih := lib_calls junk ram d cs (some b) (fun c hc => h c (by simp [hc]))
    simp only [Option.getD_some] at ih
    simp [Lib.calls, Lib.call, ih, Spec.served]
  | .allocate n :: cs, a, h => by
    have ih := lib_calls junk ram d cs a (fun c hc => h c (by simp [hc]))
    simp [Lib.calls, Lib.call, ih, Spec.served]

/-- C98: in a program that begins with `initialize()`, each allocation is served by the allocator that was set last, or
by the default one; further calls of `initialize()` change nothing.  Missing: allocators that were set before
(`C98_replaced_violated`), and allocations before (`C98_early_violated`). -/
theorem C98_served_partial (junk : Nat → UInt8) (ram : Nat) (cs : List LibCall) (h : ∀ c ∈ cs, c ≠ .set none) :
    Lib.calls junk ram ⟨none, false⟩ (.initialize :: cs) =
      .ok ((Spec.served (newFileBacked ram 0) none cs).map fun p => p.1.allocate junk p.2) := by
  have := lib_calls junk ram (newFileBacked ram 0) cs none h
  simp only [Option.getD_none] at this
  simp [Lib.calls, Lib.call, this]

/-- `initialize()` replaces an allocator that the program has set before. -/
theorem C98_replaced_violated (junk : Nat → UInt8) (ram n : Nat) :
    Spec.served (newFileBacked ram 0) none [.set (some .heap), .initialize, .allocate n] = [(.heap, n)] ∧
    Lib.calls junk ram ⟨none, false⟩ [.set (some .heap), .initialize, .allocate n] =
      .ok [(newFileBacked ram 0).allocate junk n] ∧
    (newFileBacked ram 0).allocate junk n ≠ Allocator.heap.allocate junk n := by
  refine ⟨rfl, rfl, ?_⟩
  intro h
  have hk : ((newFileBacked ram 0).allocate junk n).kind = .heap := by rw [h]; rfl
  unfold newFileBacked Allocator.allocate at hk
  simp only [if_true] at hk
  split at hk <;> simp at hk

/-- Without `initialize()`, an allocation uses a null pointer. -/
theorem C98_early_violated (junk : Nat → UInt8) (ram n : Nat) (cs : List LibCall) :
    Lib.calls junk ram ⟨none, false⟩ (.allocate n :: cs) = .ub "null pointer" := rfl

/-! Concrete cases: a machine with 64 bytes has the threshold 16. -/

example : Spec.limit 64 0 = 16 ∧ Spec.limit 64 20 = 20 ∧ Spec.limit 0 0 = 536870912 := by decide

example : ∃ b, ((newFileBacked 64 0).allocate (fun _ => 1) 4).resizes (fun _ => 1) [8, 17, 18] = .ok b ∧
    b.onHeap = 0 ∧ b.data.length = 18 := by
  refine ⟨_, rfl, ?_⟩
  decide +kernel

example : (4 : Nat) ≤ Spec.limit 64 0 ∧ Spec.limit 64 0 < 17 := by decide

example : ∀ c ∈ [LibCall.allocate 3, .set (some .heap), .initialize, .allocate 20], c ≠ .set none := by simp

example : Spec.served (newFileBacked 64 0) none [LibCall.allocate 3, .set (some .heap), .initialize, .allocate 20] =
    [(.fileBacked 16, 3), (.heap, 20)] := by decide

end Mlio
