import Verif.Model.ListErrors
import Verif.Props.OpenErrors
import Verif.Props.FileTree

/-! # C92: paths that cannot be listed -/

namespace Mlio
open Spec

theorem natLess_fst_strictWeak {β : Type} (signed : Bool) : StrictWeak fun a b : Bytes × β => natLess signed a.1 b.1 := by
  have h := natLess_strictWeak signed
  exact ⟨fun a => h.irrefl a.1, fun a b c => h.trans a.1 b.1 c.1, fun a b c => h.incomp a.1 b.1 c.1⟩

theorem openErrno_same (n : Int) : ∀ (roots : List (Bytes × Option Int)) (errno : Int), (∀ r ∈ roots, ∀ m, r.2 = some m → m = n) →
    (errno = n ∨ ∃ r ∈ roots, r.2 ≠ none) → openErrno errno roots = n
  | [], errno, _, h => by
    rcases h with h | ⟨r, hr, _⟩
    · exact h
    · cases hr
  | (p, some m) :: roots, errno, hs, _ => by
    have hm : m = n := hs (p, some m) List.mem_cons_self m rfl
    exact openErrno_same n roots m (fun r hr => hs r (List.mem_cons_of_mem _ hr)) (.inl hm)
  | (p, none) :: roots, errno, hs, h => by
    refine openErrno_same n roots errno (fun r hr => hs r (List.mem_cons_of_mem _ hr)) ?_
    rcases h with h | ⟨r, hr, hn⟩
    · exact .inl h
    · rcases List.mem_cons.1 hr with rfl | hr
      · exact absurd rfl hn
      · exact .inr ⟨r, hr, hn⟩

/-- **C92**: `list_files` reports an error exactly if one of the paths cannot be looked up, as a system error that names such a path, the first of them in natural
order. -/
theorem C92_listing (signed : Bool) (sort : List (Bytes × Option Int) → List (Bytes × Option Int))
    (hsort : Sorts (fun a b => natLess signed a.1 b.1) sort) (errno : Int) (roots : List (Bytes × Option Int)) :
    ((∀ r ∈ roots, r.2 = none) → listError sort errno roots = none) ∧
    ((∃ r ∈ roots, r.2 ≠ none) → ∃ e r, listError sort errno roots = some e ∧ e.cls = .system ∧ r ∈ roots ∧ r.2 ≠ none ∧ Names r.1 e ∧
      ∀ q ∈ roots, q.2 ≠ none → natLess signed q.1 r.1 = false) := by
  obtain ⟨hperm, hsorted⟩ := hsort (natLess_fst_strictWeak signed) roots
  unfold listError
  constructor
  · intro h
    have : (sort roots).find? (fun r => r.2.isSome) = none := by
      rw [List.find?_eq_none]
      intro r hr
      simp [h r (hperm.mem_iff.1 hr)]
    rw [this]
  · rintro ⟨r, hr, hn⟩
    cases hf : (sort roots).find? (fun r => r.2.isSome) with
    | none =>
      rw [List.find?_eq_none] at hf
      have := hf r (hperm.mem_iff.2 hr)
      exact absurd (Option.not_isSome_iff_eq_none.1 this) hn
    | some x =>
      obtain ⟨hx, as, bs, hl, has⟩ := List.find?_eq_some_iff_append.1 hf
      refine ⟨_, x, rfl, rfl, hperm.mem_iff.1 (by rw [hl]; simp), by intro h; simp [h] at hx, ?_, ?_⟩
      · have e1 : txt "The file or directory '" = txt "The file or directory " ++ [39] := by decide +kernel
        have e2 : txt "' cannot be opened." = [39] ++ txt " cannot be opened." := by decide +kernel
        exact ⟨txt "The file or directory ", txt " cannot be opened.", by simp only [Exc.what, e1, e2, List.append_assoc]⟩
      · intro q hq hqn
        have hq' := hperm.mem_iff.2 hq
        rw [hl] at hq' hsorted
        rcases List.mem_append.1 hq' with h | h
        · have := has q h
          simp at this
          exact absurd this hqn
        · rcases List.mem_cons.1 h with rfl | h
          · exact (natLess_strictWeak signed).irrefl _
          · exact (List.pairwise_cons.1 (List.pairwise_append.1 hsorted).2.1).1 q h

/-- C92 for the code of the error: it is that of the path named, if all the paths that cannot be looked up have the same.  (Missing: different ones, see
`C92_listing_code_violated`.) -/
theorem C92_listing_code_partial (sort : List (Bytes × Option Int) → List (Bytes × Option Int)) (errno n : Int) (roots : List (Bytes × Option Int))
    (hsame : ∀ r ∈ roots, ∀ m, r.2 = some m → m = n) (hfail : ∃ r ∈ roots, r.2 ≠ none) (e : Exc) (he : listError sort errno roots = some e) :
    e.code = n := by
  unfold listError at he
  split at he
  · cases he
  · cases he
    exact openErrno_same n roots errno hsame (.inr hfail)

/-- C92 fails for the code: of two paths that cannot be looked up for different reasons, the one that comes first is named with the reason of the other, if that is given
last; so a path that runs through a file (20) is reported as missing (2), and one that may not be looked up (13) as well. -/
theorem C92_listing_code_violated (signed : Bool) (sort : List (Bytes × Option Int) → List (Bytes × Option Int))
    (hsort : Sorts (fun a b => natLess signed a.1 b.1) sort) (errno n m : Int) (p q : Bytes) (h : natLess signed p q = true) (hnm : n ≠ m) :
    ∃ e, listError sort errno [(p, some n), (q, some m)] = some e ∧ Names p e ∧ e.code = m ∧ e.code ≠ n := by
  obtain ⟨e, r, h1, -, h3, -, h5, h6⟩ := (C92_listing signed sort hsort errno [(p, some n), (q, some m)]).2 ⟨(p, some n), by simp, by simp⟩
  have hc : e.code = m := by
    unfold listError at h1
    split at h1
    · cases h1
    · cases h1; rfl
  refine ⟨e, h1, ?_, hc, by rw [hc]; exact hnm.symm⟩
  simp only [List.mem_cons, List.not_mem_nil, or_false] at h3
  rcases h3 with rfl | rfl
  · exact h5
  · have := h6 (p, some n) (by simp) (by simp)
    rw [h] at this
    cases this

/-- The hypotheses are met by `a` and `b`, and by the sort of the GNU C library. -/
example : natLess true [97] [98] = true ∧
    Sorts (fun a b : Bytes × Option Int => natLess true a.1 b.1) (fun l => l.mergeSort fun a b => !natLess true b.1 a.1) := by
  refine ⟨by decide, fun hw l => ⟨List.mergeSort_perm _ _, ?_⟩⟩
  have := List.pairwise_mergeSort (le := fun a b : Bytes × Option Int => !natLess true b.1 a.1) (by
    intro a b c h1 h2
    simp only [Bool.not_eq_true'] at h1 h2 ⊢
    have hw' := natLess_strictWeak true
    cases h : natLess true c.1 a.1 with
    | false => rfl
    | true =>
      exfalso
      cases h3 : natLess true a.1 b.1 with
      | true => rw [hw'.trans _ _ _ h h3] at h2; cases h2
      | false =>
        cases h4 : natLess true b.1 c.1 with
        | true => rw [hw'.trans _ _ _ h4 h] at h1; cases h1
        | false => rw [(hw'.incomp _ _ _ h3 h1 h4 h2).2] at h; cases h) (by
    intro a b
    have hw' := natLess_strictWeak true
    cases h1 : natLess true b.1 a.1 with
    | false => simp
    | true =>
      cases h2 : natLess true a.1 b.1 with
      | false => simp
      | true => have := hw'.trans _ _ _ h1 h2; rw [hw'.irrefl] at this; cases this) l
  exact this.imp fun h => by simpa using h

end Mlio
