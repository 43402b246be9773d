import Verif.Model.Schema
import Verif.Spec.Tensor

namespace Mlio
open Spec

theorem asSize_nat (n : Nat) (h : n < 2 ^ 64) : asSize (n : Int) = n := by
  unfold asSize; omega

theorem asSsize_small (n : Nat) (h : n < 2 ^ 63) : asSsize n = n := by
  unfold asSsize W64
  have : n % 2 ^ 64 = n := Nat.mod_eq_of_lt (by omega)
  simp only [this]
  rw [if_pos h]

theorem ssizeRes_ok (i : Int) (h : 0 ≤ i) (h' : i < 2 ^ 63) : ssizeRes i = .ok i := by
  unfold ssizeRes
  rw [if_pos ⟨by omega, h'⟩]

theorem defaultStrides_rowMajor : ∀ (shape : List Nat), StridesFit shape →
    defaultStrides shape = .ok (rowMajor shape)
  | [], _ => rfl
  | [_], _ => rfl
  | a :: d :: ds, h => by
    have ih := defaultStrides_rowMajor (d :: ds) h.2
    have hp := h.1
    have key : ((numElements ds : Nat) : Int) * asSsize d = (numElements (d :: ds) : Nat) := by
      simp only [numElements] at hp ⊢
      by_cases hz : numElements ds = 0
      · simp [hz]
      · have : d < 2 ^ 63 := by
          have : d * 1 ≤ d * numElements ds := Nat.mul_le_mul_left d (by omega)
          omega
        rw [asSsize_small d this]
        push_cast
        exact Int.mul_comm _ _
    simp only [defaultStrides, ih, rowMajor]
    rw [key, ssizeRes_ok _ (by omega) (by omega)]

theorem rowMajor_length : ∀ (shape : List Nat), (rowMajor shape).length = shape.length
  | [] => rfl
  | _ :: ds => by simp [rowMajor, rowMajor_length ds]

theorem defaultStrides_length : ∀ (shape : List Nat) (ss : List Int), defaultStrides shape = .ok ss →
    ss.length = shape.length
  | [], ss, h => by simp [defaultStrides] at h; simp [← h]
  | [_], ss, h => by simp [defaultStrides] at h; simp [← h]
  | a :: d :: ds, ss, h => by
    simp only [defaultStrides] at h
    cases hd : defaultStrides (d :: ds) with
    | err e => rw [hd] at h; simp at h
    | ub e => rw [hd] at h; simp at h
    | ok l =>
      have ih := defaultStrides_length (d :: ds) l hd
      rw [hd] at h
      cases l with
      | nil => simp at ih
      | cons s l =>
        cases hs : ssizeRes (s * asSsize d) with
        | err e => simp [hs] at h
        | ub e => simp [hs] at h
        | ok t =>
          simp [hs] at h
          subst h
          simpa using ih

theorem tensorStrides_length (shape : List Nat) (strides ss : List Int) (h : tensorStrides shape strides = .ok ss) :
    ss.length = shape.length := by
  unfold tensorStrides at h
  by_cases he : strides.isEmpty
  · rw [if_pos he] at h; exact defaultStrides_length _ _ h
  · rw [if_neg he] at h
    by_cases hl : strides.length ≠ shape.length
    · rw [if_pos hl] at h; simp at h
    · rw [if_neg hl] at h
      simp at h; subst h; simpa using hl

theorem lastIndex_exact : ∀ (shape : List Nat) (strides : List Int) (acc : Nat),
    (∀ d ∈ shape, 0 < d ∧ d < 2 ^ 64) → (∀ s ∈ strides, -2 ^ 63 < s ∧ s < 2 ^ 63) →
    acc + extent shape strides < 2 ^ 64 →
    lastIndex shape strides acc = .ok (acc + extent shape strides)
  | [], _, acc, _, _, _ => by simp [lastIndex, extent]
  | _ :: _, [], acc, _, _, _ => by simp [lastIndex, extent]
  | d :: ds, s :: ss, acc, hd, hs, he => by
    have h1 := hd d (by simp)
    have h2 := hs s (by simp)
    simp only [extent] at he ⊢
    have hdm : (d + (2 ^ 64 - 1)) % 2 ^ 64 = d - 1 := by omega
    have hsm : asSize s.natAbs = s.natAbs := asSize_nat _ (by omega)
    unfold lastIndex
    rw [if_neg (by omega), hdm, hsm, Nat.mod_eq_of_lt (by omega)]
    rw [lastIndex_exact ds ss _ (fun x hx => hd x (by simp [hx])) (fun x hx => hs x (by simp [hx])) (by omega)]
    rw [Nat.add_assoc]

theorem lastIndex_rowMajor : ∀ (shape : List Nat) (acc : Nat), StridesFit shape → shape ≠ [] →
    ∃ r, lastIndex shape (rowMajor shape) acc = .ok r ∧ (r + 1) % 2 ^ 64 = (acc + numElements shape) % 2 ^ 64
  | [], _, _, h => absurd rfl h
  | [d], acc, _, _ => by
    refine ⟨(acc + (d + (2 ^ 64 - 1)) % 2 ^ 64 * 1) % 2 ^ 64, ?_, ?_⟩
    · have : asSize ((1 : Nat) : Int).natAbs = 1 := by decide
      simp only [rowMajor, numElements, lastIndex]
      rw [if_neg (by decide), this]
    · simp only [numElements]
      omega
  | a :: d :: ds, acc, hf, _ => by
    have hP := hf.1
    have hsm : asSize ((numElements (d :: ds) : Nat) : Int).natAbs = numElements (d :: ds) := by
      rw [Int.natAbs_natCast]; exact asSize_nat _ (by omega)
    obtain ⟨r, hr, hm⟩ := lastIndex_rowMajor (d :: ds)
      ((acc + (a + (2 ^ 64 - 1)) % 2 ^ 64 * numElements (d :: ds)) % 2 ^ 64) hf.2 (by simp)
    refine ⟨r, ?_, ?_⟩
    · have e : rowMajor (a :: d :: ds) = ((numElements (d :: ds) : Nat) : Int) :: rowMajor (d :: ds) := rfl
      rw [e, lastIndex, if_neg (by omega), hsm]
      exact hr
    · rw [hm]
      have e : numElements (a :: d :: ds) = a * numElements (d :: ds) := rfl
      rw [e]
      generalize numElements (d :: ds) = P
      rw [Nat.mod_add_mod, Nat.add_mod, Nat.add_mod acc (_ * P), Nat.mul_mod, Nat.mod_mod, ← Nat.mul_mod]
      rw [← Nat.add_mod acc, ← Nat.add_mod]
      have : acc + (a + (2 ^ 64 - 1)) * P + P = acc + a * P + 2 ^ 64 * P := by
        rw [Nat.add_mul]; omega
      rw [this, Nat.add_mul_mod_self_left]

theorem offset_bounds : ∀ (idx shape : List Nat) (strides : List Int), InShape idx shape →
    (∀ s ∈ strides, 0 ≤ s) → 0 ≤ offset idx strides ∧ offset idx strides ≤ extent shape strides
  | [], [], ss, _, _ => by cases ss <;> simp [offset, extent]
  | i :: is, d :: ds, [], _, _ => by simp [offset, extent]
  | i :: is, d :: ds, s :: ss, h, hs => by
    have ih := offset_bounds is ds ss h.2 (fun x hx => hs x (by simp [hx]))
    have h0 := hs s (by simp)
    have h1 := h.1
    simp only [offset, extent]
    have e : ((s.natAbs : Nat) : Int) = s := Int.natAbs_of_nonneg h0
    have a1 : 0 ≤ (i : Int) * s := Int.mul_nonneg (by omega) h0
    have a2 : (i : Int) * s ≤ ((d - 1 : Nat) : Int) * s := Int.mul_le_mul_of_nonneg_right (by omega) h0
    push_cast at *
    rw [Int.natAbs_of_nonneg h0] at *
    omega
  | [], _ :: _, _, h, _ => h.elim
  | _ :: _, [], _, h, _ => h.elim

theorem inShape_pos : ∀ (idx shape : List Nat), InShape idx shape → ∀ d ∈ shape, 0 < d
  | [], [], _, d, hd => by simp at hd
  | i :: is, e :: ds, h, d, hd => by
    simp only [List.mem_cons] at hd
    rcases hd with rfl | hd
    · have := h.1; omega
    · exact inShape_pos is ds h.2 d hd
  | [], _ :: _, h, _, _ => h.elim
  | _ :: _, [], h, _, _ => h.elim

theorem inShape_numElements_pos : ∀ (idx shape : List Nat), InShape idx shape → 0 < numElements shape
  | [], [], _ => by simp [numElements]
  | i :: is, e :: ds, h => by
    have := inShape_numElements_pos is ds h.2
    have h1 := h.1
    exact Nat.mul_pos (by omega) this
  | [], _ :: _, h => h.elim
  | _ :: _, [], h => h.elim

theorem offset_rowMajor : ∀ (idx shape : List Nat), InShape idx shape →
    ∃ n : Nat, offset idx (rowMajor shape) = n ∧ n < numElements shape
  | [], [], _ => ⟨0, rfl, by simp [numElements]⟩
  | i :: is, d :: ds, h => by
    obtain ⟨n, hn, hl⟩ := offset_rowMajor is ds h.2
    refine ⟨i * numElements ds + n, ?_, ?_⟩
    · simp only [rowMajor, offset, hn]; push_cast; rfl
    · have h1 := h.1
      have : (i + 1) * numElements ds ≤ d * numElements ds := Nat.mul_le_mul_right _ h1
      rw [Nat.add_mul] at this
      simp only [numElements]; omega
  | [], _ :: _, h => h.elim
  | _ :: _, [], h => h.elim

theorem offset_rowMajor_inj : ∀ (idx idx' shape : List Nat), InShape idx shape → InShape idx' shape →
    offset idx (rowMajor shape) = offset idx' (rowMajor shape) → idx = idx'
  | [], [], [], _, _, _ => rfl
  | i :: is, j :: js, d :: ds, h, h', e => by
    obtain ⟨n, hn, hl⟩ := offset_rowMajor is ds h.2
    obtain ⟨m, hm, hl'⟩ := offset_rowMajor js ds h'.2
    simp only [rowMajor, offset, hn, hm] at e
    have e' : i * numElements ds + n = j * numElements ds + m := by exact_mod_cast e
    have hP : 0 < numElements ds := by omega
    have h1 : (i * numElements ds + n) / numElements ds = i := by
      rw [Nat.add_comm, Nat.add_mul_div_right _ _ hP, Nat.div_eq_of_lt hl]; omega
    have h2 : (j * numElements ds + m) / numElements ds = j := by
      rw [Nat.add_comm, Nat.add_mul_div_right _ _ hP, Nat.div_eq_of_lt hl']; omega
    have hij : i = j := by rw [← h1, ← h2, e']
    subst hij
    have hnm : n = m := by omega
    have := offset_rowMajor_inj is js ds h.2 h'.2 (by rw [hn, hm, hnm])
    rw [this]
  | [], _, _ :: _, h, _, _ => h.elim
  | _ :: _, _, [], h, _, _ => h.elim
  | [], _ :: _, [], _, h, _ => h.elim
  | _ :: _, [], _ :: _, _, h, _ => h.elim

/-! ## Schemas -/

theorem schemaLoop_spec : ∀ (as : List Attr) (idx : Nat) (m : List (Bytes × Nat)),
    (schemaLoop as idx m = .err .invalidArgument ∧
      ¬ ((as.map Attr.name).Nodup ∧ ∀ a ∈ as, m.lookup a.name = none)) ∨
    (∃ m', schemaLoop as idx m = .ok m' ∧ (as.map Attr.name).Nodup ∧ (∀ a ∈ as, m.lookup a.name = none) ∧
      (∀ (i : Nat) (a : Attr), as[i]? = some a → m'.lookup a.name = some (idx + i)) ∧
      (∀ n, n ∉ as.map Attr.name → m'.lookup n = m.lookup n))
  | [], idx, m => by right; exact ⟨m, rfl, by simp, by simp, by simp, by simp⟩
  | a :: as, idx, m => by
    unfold schemaLoop
    cases hl : m.lookup a.name with
    | some v =>
      left
      refine ⟨rfl, ?_⟩
      rintro ⟨_, h⟩
      have := h a (by simp)
      rw [hl] at this; simp at this
    | none =>
      have hcons : ∀ n, n ≠ a.name → ((a.name, idx) :: m).lookup n = m.lookup n := by
        intro n hn
        have : (n == a.name) = false := by simpa using hn
        simp [List.lookup, this]
      rcases schemaLoop_spec as (idx + 1) ((a.name, idx) :: m) with ⟨he, hn⟩ | ⟨m', he, hnd, hfresh, hi, ho⟩
      · left
        refine ⟨he, ?_⟩
        rintro ⟨hnd, hf⟩
        simp only [List.map_cons, List.nodup_cons] at hnd
        apply hn
        refine ⟨hnd.2, fun b hb => ?_⟩
        rw [hcons _ (fun hx => hnd.1 (hx ▸ List.mem_map_of_mem hb))]
        exact hf b (by simp [hb])
      · right
        have hna : a.name ∉ as.map Attr.name := by
          intro hm
          obtain ⟨b, hb, hbn⟩ := List.mem_map.1 hm
          have := hfresh b hb
          rw [hbn] at this
          simp [List.lookup] at this
        refine ⟨m', he, ?_, ?_, ?_, ?_⟩
        · simp only [List.map_cons, List.nodup_cons]; exact ⟨hna, hnd⟩
        · intro b hb
          simp only [List.mem_cons] at hb
          rcases hb with rfl | hb
          · exact hl
          · have := hfresh b hb
            rwa [hcons _ (fun hx => hna (hx ▸ List.mem_map_of_mem hb))] at this
        · intro i b hb
          cases i with
          | zero =>
            simp only [List.getElem?_cons_zero, Option.some.injEq] at hb
            subst hb
            rw [ho _ hna]
            simp [List.lookup]
          | succ i =>
            simp only [List.getElem?_cons_succ] at hb
            rw [hi i b hb]; congr 1; omega
        · intro n hn
          simp only [List.map_cons, List.mem_cons, not_or] at hn
          rw [ho n hn.2, hcons n hn.1]

theorem Attr.eq_iff (a b : Attr) : a.eq b = true ↔ a = b := by
  cases a; cases b
  simp only [Attr.eq, Bool.and_eq_true, beq_iff_eq, Attr.mk.injEq]
  constructor
  · rintro ⟨⟨⟨⟨h1, h2⟩, h3⟩, h4⟩, h5⟩; exact ⟨h1, h2, h4, h5, h3⟩
  · rintro ⟨h1, h2, h4, h5, h3⟩; exact ⟨⟨⟨⟨h1, h2⟩, h3⟩, h4⟩, h5⟩

theorem attrsEq_iff : ∀ (as bs : List Attr), attrsEq as bs = true ↔ as = bs
  | [], [] => by simp [attrsEq]
  | a :: as, b :: bs => by simp [attrsEq, Attr.eq_iff, attrsEq_iff as bs]
  | [], _ :: _ => by simp [attrsEq]
  | _ :: _, [] => by simp [attrsEq]

end Mlio
