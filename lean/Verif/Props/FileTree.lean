import Verif.Proofs.FileTree
import Verif.Props.Stores

/-!
# C82: listing files gives all of them, in an order that depends on their names only
-/

namespace Mlio
open Spec

/-- C82: `list_files` gives every file at and below the paths that passes the filters, once, and nothing else: directory by
directory in the natural order of the names.  If anything there cannot be read, or a path is empty, it is an error; nothing is
left out silently.  (Missing: the empty list of paths, see `C82_empty_violated`.) -/
theorem C82_listed_partial (signed : Bool) (sort : List (Bytes × List FtsEntry) → List (Bytes × List FtsEntry))
    (hsort : Sorts (fun a b => natLess signed a.1 b.1) sort) (pattern : Option (Bytes → Option Bool))
    (predicate : Option (Bytes → Bool)) (hpat : ∀ u f, pattern = some f → f u ≠ none) (roots : List (Bytes × FsNode)) :
    (roots ≠ [] → (∀ r ∈ roots, r.1 ≠ [] ∧ ¬ Unreadable r.2) → ∃ us, Listings (natLess signed) roots us ∧
      us.Perm (roots.flatMap fun r => filesOf r.1 r.2) ∧
      listTrees pattern predicate sort roots = .ok (us.filter (Passes pattern predicate))) ∧
    ((∃ r ∈ roots, r.1 = [] ∨ Unreadable r.2) → listTrees pattern predicate sort roots = .err .systemError) := by
  have hw := natLess_strictWeak signed
  constructor
  · intro hsome h
    obtain ⟨us, h1, h2⟩ := (listTrees_ok hw hsort pattern predicate hpat roots hsome fun r hr => (h r hr).1).1 fun r hr => (h r hr).2
    exact ⟨us, h1, listings_perm h1, h2⟩
  · rintro ⟨r, hr, h⟩
    have hsome : roots ≠ [] := List.ne_nil_of_mem hr
    by_cases hne : ∀ r ∈ roots, r.1 ≠ []
    · exact (listTrees_ok hw hsort pattern predicate hpat roots hsome hne).2 ⟨r, hr, h.resolve_left (hne r hr)⟩
    · unfold listTrees
      have h0 : ∃ r ∈ roots, r.1 = [] := Classical.byContradiction fun hn => hne fun r hm he => hn ⟨r, hm, he⟩
      obtain ⟨r, hm, he⟩ := h0
      rw [if_neg (by simpa using hsome), if_pos (List.any_eq_true.2 ⟨r, hm, by simp [he]⟩)]

/-- C82 fails for the empty list of paths: instead of giving the empty list, the program has undefined behaviour, whatever the filters are. -/
theorem C82_empty_violated (sort : List (Bytes × List FtsEntry) → List (Bytes × List FtsEntry)) (pattern : Option (Bytes → Option Bool))
    (predicate : Option (Bytes → Bool)) : ¬ (listTrees pattern predicate sort []).NoUB := by
  simp [listTrees, Res.NoUB]

/-- A sort as the `qsort` of the GNU C library does it (merge sort). -/
def qsortNames (signed : Bool) (l : List (Bytes × List FtsEntry)) : List (Bytes × List FtsEntry) :=
  l.mergeSort fun a b => !natLess signed b.1 a.1

theorem qsortNames_sorts (signed : Bool) : Sorts (fun a b => natLess signed a.1 b.1) (qsortNames signed) := by
  intro hw l
  refine ⟨List.mergeSort_perm _ _, ?_⟩
  have := List.pairwise_mergeSort (le := fun a b : Bytes × List FtsEntry => !natLess signed b.1 a.1) (by
    intro a b c h1 h2
    simp only [Bool.not_eq_true'] at h1 h2 ⊢
    have hw' := natLess_strictWeak signed
    cases h : natLess signed c.1 a.1 with
    | false => rfl
    | true =>
      exfalso
      cases hab : natLess signed a.1 b.1 with
      | true => rw [hw'.trans _ _ _ h hab] at h2; cases h2
      | false =>
        cases hbc : natLess signed b.1 c.1 with
        | true => rw [hw'.trans _ _ _ hbc h] at h1; cases h1
        | false =>
          have := hw'.incomp _ _ _ hab h1 hbc h2
          rw [h] at this
          cases this.2) (by
    intro a b
    have hw' := natLess_strictWeak signed
    cases h1 : natLess signed b.1 a.1 with
    | false => rfl
    | true =>
      cases h2 : natLess signed a.1 b.1 with
      | false => rfl
      | true =>
        have := hw'.trans _ _ _ h1 h2
        rw [hw'.irrefl] at this
        cases this) l
  refine List.Pairwise.imp ?_ this
  intro a b h
  simpa using h

/-- `d` with the files `x10`, `x2`, a directory `s` with a file and a pipe, and a link to nothing. -/
def exTree : FsNode :=
  .dir [([120, 49, 48], .file), ([120, 50], .file), ([115], .dir [([112], .special), ([97], .file)]), ([108], .broken)]

/-- The same, enumerated otherwise. -/
def exTree' : FsNode :=
  .dir [([108], .broken), ([115], .dir [([97], .file), ([112], .special)]), ([120, 50], .file), ([120, 49, 48], .file)]

theorem exTree_plain : PlainTree exTree := by
  refine .dir _ ⟨by decide, ?_⟩ ?_
  · intro e he
    simp only [List.mem_cons, List.not_mem_nil, or_false] at he
    rcases he with rfl | rfl | rfl | rfl <;> (unfold PlainName; decide)
  · intro e he
    simp only [List.mem_cons, List.not_mem_nil, or_false] at he
    rcases he with rfl | rfl | rfl | rfl
    · exact .file
    · exact .file
    · refine .dir _ ⟨by decide, ?_⟩ ?_
      · intro e he
        simp only [List.mem_cons, List.not_mem_nil, or_false] at he
        rcases he with rfl | rfl <;> (unfold PlainName; decide)
      · intro e he
        simp only [List.mem_cons, List.not_mem_nil, or_false] at he
        rcases he with rfl | rfl
        · exact .special
        · exact .file
    · exact .broken

theorem exTree_readable : ¬ Unreadable exTree := by
  intro h
  cases h with
  | inside _ e he hu =>
    simp only [List.mem_cons, List.not_mem_nil, or_false] at he
    rcases he with rfl | rfl | rfl | rfl
    · cases hu
    · cases hu
    · cases hu with
      | inside _ e he hu =>
        simp only [List.mem_cons, List.not_mem_nil, or_false] at he
        rcases he with rfl | rfl <;> cases hu
    · cases hu

/-- The hypotheses are met, and the list is what one expects: `d/s/a`, `d/x2`, `d/x10`. -/
example : ¬ Unreadable exTree ∧ filesOf [100] exTree =
      [[100, 47, 120, 49, 48], [100, 47, 120, 50], [100, 47, 115, 47, 97]] ∧
    listTrees none none (qsortNames true) [([100], exTree)] =
      .ok [[100, 47, 115, 47, 97], [100, 47, 120, 50], [100, 47, 120, 49, 48]] ∧
    listTrees none none (qsortNames true) [([100], .dir [([97], .file), ([98], .failing)])] = .err .systemError := by
  refine ⟨exTree_readable, ?_, ?_, ?_⟩
  · simp [exTree, filesOf_dir, filesOf, ← joinPath_below, joinPath]
  · simp [exTree, listTrees, walk_dir, walk, ← joinPath_below, joinPath, qsortNames, listFiles, wanted, List.mergeSort,
      List.MergeSort.Internal.splitInTwo, List.merge, natLess, strnatcmp, cstr, natLoop, natSpace, natDigit, compareRuns,
      compareRight, charVal]
  · refine (C82_listed_partial true (qsortNames true) (qsortNames_sorts true) none none (by simp) _).2
      ⟨_, List.mem_singleton.2 rfl, Or.inr (.inside _ ([98], .failing) (by simp) .here)⟩

/-- C82: the list does not depend on the order in which the file system enumerates directories, on the order in which the paths
are given, or on how sorting is done, if the names in each directory are distinct and have no white space in them.  Without that
it is false, see `C82_order_violated`. -/
theorem C82_same_partial (signed : Bool) (sort sort' : List (Bytes × List FtsEntry) → List (Bytes × List FtsEntry))
    (hsort : Sorts (fun a b => natLess signed a.1 b.1) sort) (hsort' : Sorts (fun a b => natLess signed a.1 b.1) sort')
    (pattern : Option (Bytes → Option Bool)) (predicate : Option (Bytes → Bool)) (hpat : ∀ u f, pattern = some f → f u ≠ none)
    (roots roots' : List (Bytes × FsNode)) (hroots : PlainNames roots) (hplain : ∀ r ∈ roots, PlainTree r.2)
    (other : Bytes × FsNode → FsNode) (hother : ∀ r ∈ roots, Reordered r.2 (other r)) (hperm : roots'.Perm roots) :
    listTrees pattern predicate sort roots = listTrees pattern predicate sort' (roots'.map fun r => (r.1, other r)) :=
  listTrees_same (natLess_strictWeak signed) hsort hsort' pattern predicate hpat roots roots' (plainNames_noTies signed hroots)
    (fun r hr => plainTree_ordered signed (hplain r hr)) other hother hperm

/-- The same whenever of any two names in a directory one comes first. -/
theorem C82_same_ordered_partial (signed : Bool) (sort sort' : List (Bytes × List FtsEntry) → List (Bytes × List FtsEntry))
    (hsort : Sorts (fun a b => natLess signed a.1 b.1) sort) (hsort' : Sorts (fun a b => natLess signed a.1 b.1) sort')
    (pattern : Option (Bytes → Option Bool)) (predicate : Option (Bytes → Bool)) (hpat : ∀ u f, pattern = some f → f u ≠ none)
    (roots roots' : List (Bytes × FsNode)) (hroots : NoTies (natLess signed) roots)
    (hord : ∀ r ∈ roots, Ordered (natLess signed) r.2)
    (other : Bytes × FsNode → FsNode) (hother : ∀ r ∈ roots, Reordered r.2 (other r)) (hperm : roots'.Perm roots) :
    listTrees pattern predicate sort roots = listTrees pattern predicate sort' (roots'.map fun r => (r.1, other r)) :=
  listTrees_same (natLess_strictWeak signed) hsort hsort' pattern predicate hpat roots roots' hroots hord other hother hperm

/-- What stands under the names in `exTree'`. -/
def exOther (e : Bytes × FsNode) : FsNode :=
  match e.2 with
  | .dir es => .dir (es.reverse.map fun e => (e.1, e.2))
  | x => x

theorem exTree_reordered : Reordered exTree exTree' := by
  refine Reordered.dir _ (List.reverse [([120, 49, 48], .file), ([120, 50], .file),
    ([115], .dir [([112], .special), ([97], .file)]), ([108], .broken)]) exOther (List.reverse_perm _) ?_
  intro e he
  simp only [List.mem_cons, List.not_mem_nil, or_false] at he
  rcases he with rfl | rfl | rfl | rfl
  · exact .same _
  · exact .same _
  · exact .dir _ _ (fun e => e.2) (List.reverse_perm _) fun e _ => .same _
  · exact .same _

/-- A tree and the same tree enumerated otherwise: the list is the same. -/
example : listTrees none none (qsortNames true) [([100], exTree)] = listTrees none none (qsortNames true) [([100], exTree')] :=
  C82_same_partial true _ _ (qsortNames_sorts true) (qsortNames_sorts true) none none (by simp) [([100], exTree)] [([100], exTree)]
    ⟨by simp, by intro e he; rw [List.mem_singleton.1 he]; unfold PlainName; decide⟩
    (by intro r hr; rw [List.mem_singleton.1 hr]; exact exTree_plain) (fun _ => exTree')
    (by intro r hr; rw [List.mem_singleton.1 hr]; exact exTree_reordered) (List.Perm.refl _)

/-- C82 fails for names that differ in white space only: comparing them gives a tie, and so the files `a 1` and `a1` of a
directory are listed in the order in which the file system happens to enumerate them. -/
theorem C82_order_violated : ∃ x y, Reordered x y ∧ ∃ us vs,
    listTrees none none (qsortNames true) [([100], x)] = .ok us ∧
    listTrees none none (qsortNames true) [([100], y)] = .ok vs ∧ us ≠ vs := by
  refine ⟨.dir [([97, 32, 49], .file), ([97, 49], .file)], .dir [([97, 49], .file), ([97, 32, 49], .file)], ?_,
    [[100, 47, 97, 32, 49], [100, 47, 97, 49]], [[100, 47, 97, 49], [100, 47, 97, 32, 49]], ?_, ?_, by decide⟩
  · exact .dir _ (List.reverse [([97, 32, 49], .file), ([97, 49], .file)]) (fun e => e.2) (List.reverse_perm _) fun e _ => .same _
  all_goals
    simp [listTrees, walk_dir, walk, ← joinPath_below, joinPath, qsortNames, listFiles, wanted, List.mergeSort,
      List.MergeSort.Internal.splitInTwo, List.merge, natLess, strnatcmp, cstr, natLoop, natSpace, natDigit, compareRuns,
      compareRight, charVal]

/-- C82: the list of objects of a service does not depend on the pages in which it delivers them, on the order within them, or on
how sorting is done, if the URIs have no white space in them. -/
theorem C82_objects_partial {T T' : Type} (signed : Bool) (server : Bytes → Bytes → Option T → List Bytes × Option T)
    (server' : Bytes → Bytes → Option T' → List Bytes × Option T') (fuel : Nat) (pattern : Option (Bytes → Option Bool))
    (predicate : Option (Bytes → Bool)) (sort sort' : List Bytes → List Bytes)
    (hsort : Sorts (natLess signed) sort) (hsort' : Sorts (natLess signed) sort')
    (hpat : ∀ u f, pattern = some f → f u ≠ none) (pages pages' : Bytes → Bytes → List (List Bytes))
    (parts : List (Bytes × Bytes × Bytes))
    (h : ∀ q ∈ parts, splitPrefix q.1 = .ok (q.2.1, q.2.2) ∧ Pages (server q.2.1 q.2.2) none (pages q.2.1 q.2.2) ∧
      Pages (server' q.2.1 q.2.2) none (pages' q.2.1 q.2.2) ∧ (pages' q.2.1 q.2.2).flatten.Perm (pages q.2.1 q.2.2).flatten ∧
      (pages q.2.1 q.2.2).length ≤ fuel ∧ (pages' q.2.1 q.2.2).length ≤ fuel ∧ PlainName q.2.1 ∧
      ∀ k ∈ (pages q.2.1 q.2.2).flatten, PlainName k) :
    listS3 server fuel pattern predicate sort (parts.map (·.1)) = listS3 server' fuel pattern predicate sort' (parts.map (·.1)) := by
  obtain ⟨us, h1, h2, h3⟩ := C51_listing signed server fuel pattern predicate sort hsort pages hpat parts fun q hq =>
    ⟨(h q hq).1, (h q hq).2.1, (h q hq).2.2.2.2.1⟩
  obtain ⟨vs, g1, g2, g3⟩ := C51_listing signed server' fuel pattern predicate sort' hsort' pages' hpat parts fun q hq =>
    ⟨(h q hq).1, (h q hq).2.2.1, (h q hq).2.2.2.2.2.1⟩
  rw [h1, g1]
  congr 1
  have hp : us.Perm vs := h3.trans ((flatMap_perm parts _ _ fun q hq =>
    ((h q hq).2.2.2.1.map _).filter _).symm.trans g3.symm)
  refine sorted_same hp ?_ h2 g2
  have hplain : ∀ u ∈ us, PlainName u := by
    intro u hu
    obtain ⟨q, hq, hm⟩ := List.mem_flatMap.1 (h3.mem_iff.1 hu)
    obtain ⟨k, hk, rfl⟩ := List.mem_map.1 (List.mem_filter.1 hm).1
    have hb := (h q hq).2.2.2.2.2.2.1
    have hk' := (h q hq).2.2.2.2.2.2.2 k hk
    intro c hc
    simp only [List.mem_append, or_assoc] at hc
    rcases hc with hc | hc | hc | hc
    · revert c; unfold s3Scheme; decide
    · exact hb c hc
    · revert c; decide
    · exact hk' c hc
  intro a ha b hb hne
  exact plain_total signed hne (hplain a ha) (hplain b hb)

/-- The bucket of `exServer`, all on one page and in another order. -/
example : Pages (exServer [98] []) none [[[120, 49, 48]], [[120, 50]]] ∧
    Pages (fun _ : Option Unit => ([[120, 50], [120, 49, 48]], none)) none [[[120, 50], [120, 49, 48]]] ∧
    ([[[120, 50], [120, 49, 48]]] : List (List Bytes)).flatten.Perm ([[[120, 49, 48]], [[120, 50]]] : List (List Bytes)).flatten ∧
    PlainName [120, 50] ∧ PlainName [98] :=
  ⟨.more _ _ 1 _ rfl (.last _ _ rfl), .last _ _ rfl, List.Perm.swap _ _ _, by unfold PlainName; decide,
    by unfold PlainName; decide⟩

end Mlio
