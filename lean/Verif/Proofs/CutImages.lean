import Verif.Proofs.CutGzip
import Verif.Proofs.FailingStores
import Verif.Proofs.ImageReader

/-!
# Loading data stores that cannot be read to their end: proofs
-/

namespace Mlio
open Spec

theorem gFill_cut {z : Inflater} : ∀ (fuel : Nat) (s : (storeIn z).σ) (x : Bytes) (r : Nat), r ≤ fuel → r ≤ 2 ^ 32 - 1 → CutStream s x →
    (∃ s1, gFill (storeIn z) fuel s r = (.err .inflateError, s1)) ∨
    ∃ got x' s1, gFill (storeIn z) fuel s r = (.ok (got, false), s1) ∧ x = got ++ x' ∧ got.length = r ∧ CutStream s1 x' := by
  intro fuel
  induction fuel with
  | zero =>
    intro s x r hr _ h
    have : r = 0 := by omega
    subst this
    exact Or.inr ⟨[], x, s, by simp [gFill], rfl, rfl, h⟩
  | succ fuel ih =>
    intro s x r hr hB h
    by_cases h0 : r = 0
    · subst h0
      exact Or.inr ⟨[], x, s, by simp [gFill], rfl, rfl, h⟩
    · rcases cut_step s x r h (by omega) hB with ⟨s1, h1, _⟩ | ⟨got, x', s1, h1, h2, h3, h4, h5⟩
      · exact Or.inl ⟨s1, by simp only [gFill, if_neg h0, h1]⟩
      · have hlen : 0 < got.length := List.length_pos_iff.2 h3
        rcases ih s1 x' (r - got.length) (by omega) (by omega) h5 with ⟨s2, g1⟩ | ⟨got', x'', s2, g1, g2, g3, g4⟩
        · exact Or.inl ⟨s2, by simp only [gFill, if_neg h0, h1, if_neg (show ¬ got.length = 0 by omega), g1]⟩
        · refine Or.inr ⟨got ++ got', x'', s2, ?_, by rw [h2, g2, List.append_assoc], by rw [List.length_append]; omega, g4⟩
          simp only [gFill, if_neg h0, h1, if_neg (show ¬ got.length = 0 by omega), g1]

theorem loadLoop_cut {z : Inflater} : ∀ (fuel : Nat) (s : (storeIn z).σ) (x filled : Bytes) (size : Option Nat),
    (match size with
      | some n => filled.length = n ∧ 0 < n
      | none => filled = []) →
    filled.length + x.length < 2 ^ 31 → CutStream s x →
    loadLoop (storeIn z) none fuel s filled size = .err .inflateError ∨
    (fuel ≤ x.length + 1 ∧ loadLoop (storeIn z) none fuel s filled size = .err .diverges)
  | 0, _, _, _, _, _, _, _ => Or.inr ⟨Nat.zero_le _, rfl⟩
  | fuel + 1, s, x, filled, size, hs, hd, h => by
    generalize hsz : nextBlockSize false 0 size = size'
    have hpos : filled.length < size' ∧ size' ≤ 2 ^ 32 - 1 := by
      unfold nextBlockSize at hsz
      cases size with
      | some n => simp only at hs hsz; omega
      | none =>
        simp only at hs hsz
        rw [hs]
        simp at hsz
        simp only [List.length_nil]
        omega
    unfold loadLoop
    simp only [Option.isSome_none, Option.getD_none, hsz]
    rcases gFill_cut (size' - filled.length) s x (size' - filled.length) (Nat.le_refl _) (by omega) h with
      ⟨s1, h1⟩ | ⟨got, x', s1, h1, h2, h3, h4⟩
    · left
      simp only [h1]
    · simp only [h1, Bool.false_eq_true, if_false]
      have hlen : x.length = got.length + x'.length := by rw [h2]; simp
      rcases loadLoop_cut fuel s1 x' (filled ++ got) (some size') ⟨by simp only [List.length_append]; omega, by omega⟩
        (by simp only [List.length_append]; omega) h4 with g | ⟨g1, g2⟩
      · exact Or.inl g
      · exact Or.inr ⟨by omega, g2⟩

/-- Loading a data store that was cut. -/
theorem cut_load {z : Inflater} {w : World} {st : Store} {x : Bytes} (h : CutGzip z w st x) (hx : x.length < 2 ^ 31) (fuel : Nat) :
    st.load z w fuel = .err .dataReader ∨ (fuel ≤ x.length + 1 ∧ st.load z w fuel = .err .diverges) := by
  obtain ⟨s, h1, h2⟩ := cut_open h
  obtain ⟨g, rest, rfl, h3⟩ := h2
  unfold Store.load
  simp only [h1, StoreStm.opened, StoreStm.total]
  rcases loadLoop_cut (z := z) fuel (.inflated g) x [] none rfl (by simpa using hx) ⟨g, rest, rfl, h3⟩ with e | ⟨e1, e2⟩
  · exact Or.inl (congrArg loadHandle e)
  · exact Or.inr ⟨e1, congrArg loadHandle e2⟩

/-- Loading a data store that cannot be opened. -/
theorem cannot_load {z : Inflater} {w : World} {st : Store} (h : CannotOpen w st) (fuel : Nat) :
    ∃ e, st.load z w fuel = .err e := by
  obtain ⟨e, _, he⟩ := cannotOpen_err (z := z) h
  have : st.openRead z w = .err e := by
    have := he (fun s => Res.ok s)
    unfold Store.openWith at this
    split at this <;> cases this
    assumption
  unfold Store.load
  simp only [this]
  split <;> exact ⟨_, rfl⟩

end Mlio
