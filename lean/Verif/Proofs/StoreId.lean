import Verif.Spec.StoreId

/-!
# The identity of data stores: proofs
-/

namespace Mlio
open Spec

theorem hexDigit_inj {m n : Nat} (hm : m < 16) (hn : n < 16) (h : hexDigit m = hexDigit n) : m = n := by
  have key : ∀ m : Fin 16, ∀ n : Fin 16, hexDigit m.1 = hexDigit n.1 → m = n := by decide
  exact congrArg Fin.val (key ⟨m, hm⟩ ⟨n, hn⟩ h)

theorem hexDigit_plus {m : Nat} (hm : m < 16) : hexDigit m ≠ 43 := by
  have key : ∀ m : Fin 16, hexDigit m.1 ≠ 43 := by decide
  exact key ⟨m, hm⟩

theorem hexDigit_zero {m : Nat} (hm : m < 16) (h : hexDigit m = 48) : m = 0 := by
  have key : ∀ m : Fin 16, hexDigit m.1 = 48 → m = 0 := by decide
  exact congrArg Fin.val (key ⟨m, hm⟩ h)

theorem hexDigits_ne (n : Nat) : hexDigits n ≠ [] := by
  rw [hexDigits]
  split <;> simp

theorem hexDigits_plus (n : Nat) : (43 : UInt8) ∉ hexDigits n := by
  induction n using Nat.strongRecOn with
  | ind n ih =>
    rw [hexDigits]
    split
    · next h =>
      intro hm
      exact hexDigit_plus h (List.mem_singleton.1 hm).symm
    · next h =>
      intro hm
      rcases List.mem_append.1 hm with hm | hm
      · exact ih (n / 16) (by omega) hm
      · exact hexDigit_plus (Nat.mod_lt _ (by omega)) (List.mem_singleton.1 hm).symm

theorem hexDigits_inj : ∀ m n : Nat, hexDigits m = hexDigits n → m = n := by
  intro m
  induction m using Nat.strongRecOn with
  | ind m ih =>
    intro n h
    rw [hexDigits, hexDigits.eq_1 n] at h
    split at h <;> split at h
    · next h1 h2 => exact hexDigit_inj h1 h2 (by simpa using h)
    · next h1 h2 =>
      have h3 := congrArg List.length h
      have h4 := List.length_pos_iff.2 (hexDigits_ne (n / 16))
      simp only [List.length_append, List.length_singleton] at h3
      omega
    · next h1 h2 =>
      have h3 := congrArg List.length h
      have h4 := List.length_pos_iff.2 (hexDigits_ne (m / 16))
      simp only [List.length_append, List.length_singleton] at h3
      omega
    · next h1 h2 =>
      obtain ⟨h3, h4⟩ := List.append_inj' h rfl
      have h5 := ih (m / 16) (by omega) _ h3
      have h6 := hexDigit_inj (Nat.mod_lt m (by omega)) (Nat.mod_lt n (by omega)) (by simpa using h4)
      omega

/-- Only zero starts with the digit zero. -/
theorem hexDigits_head (n : Nat) (hn : n ≠ 0) : ∀ t, hexDigits n ≠ 48 :: t := by
  induction n using Nat.strongRecOn with
  | ind n ih =>
    intro t h
    rw [hexDigits] at h
    split at h
    · next h1 =>
      simp only [List.cons.injEq] at h
      exact hn (hexDigit_zero h1 h.1)
    · next h1 =>
      cases hd : hexDigits (n / 16) with
      | nil => exact hexDigits_ne _ hd
      | cons c s =>
        rw [hd] at h
        simp only [List.cons_append, List.cons.injEq] at h
        exact ih (n / 16) (by omega) (by omega) s (by rw [hd, h.1])

/-- Splitting at a character that the first parts do not contain. -/
theorem split_first {c : UInt8} : ∀ {a a' b b' : Bytes}, c ∉ a → c ∉ a' → a ++ c :: b = a' ++ c :: b' → a = a' ∧ b = b'
  | [], [], _, _, _, _, h => ⟨rfl, by simpa using h⟩
  | [], x :: a', _, _, _, h2, h => by
    simp only [List.nil_append, List.cons_append, List.cons.injEq] at h
    exact absurd (by simp [h.1]) h2
  | x :: a, [], _, _, h1, _, h => by
    simp only [List.nil_append, List.cons_append, List.cons.injEq] at h
    exact absurd (by simp [h.1]) h1
  | x :: a, y :: a', _, _, h1, h2, h => by
    simp only [List.cons_append, List.cons.injEq] at h
    obtain ⟨h3, h4⟩ := split_first (fun hm => h1 (by simp [hm])) (fun hm => h2 (by simp [hm])) h.2
    exact ⟨by rw [h.1, h3], h4⟩

/-- Splitting at a character that the last parts do not contain. -/
theorem split_last {c : UInt8} {a a' b b' : Bytes} (h1 : c ∉ b) (h2 : c ∉ b') (h : a ++ [c] ++ b = a' ++ [c] ++ b') :
    a = a' ∧ b = b' := by
  have := congrArg List.reverse h
  simp only [List.reverse_append, List.reverse_cons, List.reverse_nil, List.nil_append, List.append_assoc, List.cons_append] at this
  obtain ⟨h3, h4⟩ := split_first (by simpa using h1) (by simpa using h2) this
  exact ⟨List.reverse_inj.1 h4, List.reverse_inj.1 h3⟩

theorem memoryId_inj {a n a' n' : Nat} (h : memoryId a n = memoryId a' n') : a = a' ∧ n = n' := by
  unfold memoryId at h
  simp only [List.append_assoc, List.cons_append, List.nil_append, List.cons.injEq, true_and] at h
  obtain ⟨h1, h2⟩ := split_first (hexDigits_plus a) (hexDigits_plus a') h
  refine ⟨hexDigits_inj _ _ h1, ?_⟩
  simp only [List.cons.injEq, true_and] at h2
  split at h2 <;> split at h2
  · exact hexDigits_inj _ _ (by simpa using h2)
  · next h3 h4 => exact absurd h2.symm (hexDigits_head n' (by omega) _)
  · next h3 h4 => exact absurd h2 (hexDigits_head n (by omega) _)
  · exact hexDigits_inj _ _ h2

theorem native_equal {a b : AnyStore} (ha : Native a) (hb : Native b) (lf : Bool) (shared : Bytes) :
    a.equal lf shared b = (a.id == b.id) := by
  cases a <;> first | exact ha.elim | (cases b <;> first | exact hb.elim | (cases lf <;> rfl))

end Mlio
