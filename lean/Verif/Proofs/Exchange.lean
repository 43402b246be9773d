import Verif.Spec.Exchange
import Verif.Proofs.Tensor

/-!
# Lemmas about exchanged arrays
-/

namespace Mlio
open Spec

theorem consecutive_length (k : Nat) : ∀ (n : Nat) (mem : Bytes), (consecutive k n mem).length = n
  | 0, _ => rfl
  | n + 1, mem => by simp [consecutive, consecutive_length k n]

theorem consecutive_get (k : Nat) : ∀ (n : Nat) (mem : Bytes) (i : Nat), i < n →
    (consecutive k n mem)[i]? = some ((mem.drop (i * k)).take k)
  | n + 1, mem, 0, _ => by simp [consecutive]
  | n + 1, mem, i + 1, h => by
    simp only [consecutive, List.getElem?_cons_succ]
    rw [consecutive_get k n _ i (by omega), List.drop_drop]
    congr 3
    rw [Nat.add_mul]; omega

theorem flatten_get (k : Nat) : ∀ (l : List Bytes) (i : Nat) (e : Bytes), (∀ x ∈ l, x.length = k) → l[i]? = some e →
    (l.flatten.drop (i * k)).take k = e
  | [], i, e, _, h => by simp at h
  | x :: l, 0, e, hk, h => by
    have := hk x (by simp)
    simp only [List.getElem?_cons_zero, Option.some.injEq] at h
    subst h
    simp [← this]
  | x :: l, i + 1, e, hk, h => by
    have hx := hk x (by simp)
    have ih := flatten_get k l i e (fun y hy => hk y (by simp [hy])) (by simpa using h)
    have e1 : (i + 1) * k = x.length + i * k := by rw [Nat.add_mul, hx]; omega
    rw [List.flatten_cons, e1, List.drop_append]
    rw [List.drop_eq_nil_of_le (by omega)]
    simpa using ih

theorem offset_scale (k : Int) : ∀ (idx : List Nat) (ss : List Int),
    offset idx (ss.map (fun s => k * s)) = k * offset idx ss
  | [], ss => by simp [offset]
  | _ :: _, [] => by simp [offset]
  | i :: is, s :: ss => by
    simp only [List.map_cons, offset, offset_scale k is ss]
    grind

theorem map_fdiv_mul : ∀ (ss : List Int), (ss.map (fun s => 8 * s)).map (fun s => s.fdiv 8) = ss
  | [] => rfl
  | s :: ss => by
    simp only [List.map_cons, map_fdiv_mul ss, List.cons.injEq, and_true]
    exact Int.mul_fdiv_cancel_left s (by decide)

theorem map_mul_fdiv : ∀ (ss : List Int), (∀ s ∈ ss, 8 ∣ s) → (ss.map (fun s => s.fdiv 8)).map (fun s => 8 * s) = ss
  | [], _ => rfl
  | s :: ss, h => by
    obtain ⟨t, rfl⟩ := h s (by simp)
    simp only [List.map_cons, map_mul_fdiv ss (fun x hx => h x (by simp [hx])), List.cons.injEq, and_true]
    rw [Int.mul_fdiv_cancel_left t (by decide)]

theorem foldl_numElements : ∀ (shape : List Nat) (a : Nat), shape.foldl (· * ·) a = a * numElements shape
  | [], a => by simp [numElements]
  | d :: ds, a => by
    rw [List.foldl_cons, foldl_numElements ds, numElements, Nat.mul_assoc]

theorem size_eq (b : PyBuf) : b.size = numElements b.shape := by
  unfold PyBuf.size
  rw [foldl_numElements]; omega

theorem lastIndex_cases : ∀ (shape : List Nat) (ss : List Int) (acc : Nat), (∀ s ∈ ss, 0 ≤ s) →
    ∃ r, lastIndex shape ss acc = .ok r
  | [], _, acc, _ => ⟨acc, by simp [lastIndex]⟩
  | _ :: _, [], acc, _ => ⟨acc, by simp [lastIndex]⟩
  | d :: ds, s :: ss, acc, h => by
    have := h s (by simp)
    unfold lastIndex
    rw [if_neg (by omega)]
    exact lastIndex_cases ds ss _ (fun x hx => h x (by simp [hx]))

/-- The last element. -/
theorem offset_last : ∀ (shape : List Nat), 0 < numElements shape →
    InShape (shape.map (· - 1)) shape ∧ offset (shape.map (· - 1)) (rowMajor shape) = (numElements shape - 1 : Nat)
  | [], _ => by simp [InShape, offset, numElements]
  | d :: ds, h => by
    have hd : 0 < d := Nat.pos_of_mul_pos_right h
    have hn : 0 < numElements ds := Nat.pos_of_mul_pos_left h
    obtain ⟨h1, h2⟩ := offset_last ds hn
    refine ⟨⟨by simp only; omega, h1⟩, ?_⟩
    simp only [List.map_cons, rowMajor, offset, h2, numElements]
    obtain ⟨e, rfl⟩ : ∃ e, d = e + 1 := ⟨d - 1, by omega⟩
    obtain ⟨n, hn'⟩ : ∃ n, numElements ds = n + 1 := ⟨numElements ds - 1, by omega⟩
    rw [hn']
    have : (e + 1) * (n + 1) - 1 = e * (n + 1) + n := by rw [Nat.add_mul]; omega
    rw [this]
    push_cast
    simp

/-- The memory of an array in C order. -/
theorem contiguous_room (b : PyBuf) (hv : PyValid b) (hc : Contiguous b) : b.ptr + b.size * b.item ≤ b.mem.length := by
  rw [size_eq]
  by_cases h0 : numElements b.shape = 0
  · rw [h0]; have := hv.2.1; omega
  · obtain ⟨h1, h2⟩ := offset_last b.shape (by omega)
    have := (hv.2.2 _ h1).2
    rw [hc, offset_scale, h2] at this
    obtain ⟨n, hn⟩ : ∃ n, numElements b.shape = n + 1 := ⟨numElements b.shape - 1, by omega⟩
    rw [hn] at this ⊢
    rw [Nat.add_mul]
    have e : ((n + 1 - 1 : Nat) : Int) = n := by simp
    rw [e] at this
    have c : (b.item : Int) * n = ((n * b.item : Nat) : Int) := by push_cast; grind
    rw [c] at this
    omega

theorem getDataType_item {fmt : List Char} {n : Nat} {dt : DataType} (h : getDataType fmt n = some dt) :
    itemSize dt = n ∧ ∃ c, (fmt = [c] ∨ fmt = ['@', c] ∨ fmt = ['=', c]) ∧ pyKind c = some (kindOf dt) := by
  have key : ∀ c, formatType c n = some dt → itemSize dt = n ∧ pyKind c = some (kindOf dt) := by
    intro c hc
    unfold formatType at hc
    split at hc <;> (repeat' split at hc)
    all_goals cases hc
    all_goals (subst_vars; exact ⟨rfl, rfl⟩)
  unfold getDataType at h
  split at h
  · rename_i c
    exact ⟨(key c h).1, c, Or.inl rfl, (key c h).2⟩
  · rename_i p c
    split at h
    · simp at h
    · rename_i hp
      refine ⟨(key c h).1, c, ?_, (key c h).2⟩
      by_cases h1 : p = '@'
      · subst h1; exact Or.inr (Or.inl rfl)
      · have : p = '=' := Classical.byContradiction (fun h2 => hp ⟨h1, h2⟩)
        subst this; exact Or.inr (Or.inr rfl)
  · simp at h

theorem exportFormat_size (dt : DataType) : (exportFormat dt).2 = itemSize dt := by cases dt <;> rfl

end Mlio
