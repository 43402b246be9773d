import Verif.Proofs.Glob
import Verif.Props.FileTree
import Verif.Props.Stores

namespace Mlio
open Spec

/-! # C114: a pattern selects the files that match it -/

/-- C114: with a pattern `list_files` gives exactly the files whose paths match it as a whole (and satisfy the predicate), in the order
of the listing without a pattern.  (The documentation speaks of the names of files, not of paths: see below.  Missing: the empty list of paths, `C82_empty_violated`.) -/
theorem C114_paths_partial (signed : Bool) (sort : List (Bytes × List FtsEntry) → List (Bytes × List FtsEntry))
    (hsort : Sorts (fun a b => natLess signed a.1 b.1) sort) (g : List PatPart) (hg : g ≠ []) (hok : ∀ t ∈ g, t.Ok)
    (predicate : Option (Bytes → Bool)) (roots : List (Bytes × FsNode)) (hsome : roots ≠ []) (hroots : ∀ r ∈ roots, r.1 ≠ [] ∧ ¬ Unreadable r.2)
    (hnul : ∀ r ∈ roots, ∀ u ∈ filesOf r.1 r.2, 0 ∉ u) :
    ∃ us vs, Listings (natLess signed) roots us ∧ us.Perm (roots.flatMap fun r => filesOf r.1 r.2) ∧
      listTrees (patternOf (patText g)) predicate sort roots = .ok vs ∧
      SelectedBy (fun u => MatchesPat g u ∧ ∀ p, predicate = some p → p u = true) us vs := by
  obtain ⟨us, h1, h2, h3⟩ := (C82_listed_partial signed sort hsort _ predicate (patternOf_total (patText g)) roots).1 hsome hroots
  refine ⟨us, _, h1, h2, h3, _, rfl, fun u hu => ?_⟩
  obtain ⟨r, hr, hu⟩ := List.mem_flatMap.1 (h2.mem_iff.1 hu)
  exact patternOf_passes_both g hg hok predicate u (hnul r hr u hu)

/-- C114 for patterns such as `*.csv` and `*[0-9].csv`, a star and then single characters other than the slash: `list_files` gives
exactly the files whose names match.  What is missing: other patterns, for which this is not so (`C114_name_violated`,
`C114_directory_violated`). -/
theorem C114_names_partial (signed : Bool) (sort : List (Bytes × List FtsEntry) → List (Bytes × List FtsEntry))
    (hsort : Sorts (fun a b => natLess signed a.1 b.1) sort) (g : List PatPart) (hok : ∀ t ∈ g, t.Ok) (hslash : ∀ t ∈ g, NoSlash t)
    (roots : List (Bytes × FsNode)) (hsome : roots ≠ []) (hroots : ∀ r ∈ roots, r.1 ≠ [] ∧ ¬ Unreadable r.2)
    (hnul : ∀ r ∈ roots, ∀ u ∈ filesOf r.1 r.2, 0 ∉ u) :
    ∃ us vs, Listings (natLess signed) roots us ∧ us.Perm (roots.flatMap fun r => filesOf r.1 r.2) ∧
      listTrees (patternOf (patText (.star :: g))) none sort roots = .ok vs ∧
      SelectedBy (fun u => ∃ name, NameOf u name ∧ MatchesPat (.star :: g) name) us vs := by
  have hok' : ∀ t ∈ PatPart.star :: g, t.Ok := by
    intro t ht
    rcases List.mem_cons.1 ht with rfl | ht
    · trivial
    · exact hok t ht
  obtain ⟨us, vs, h1, h2, h3, f, h4, h5⟩ := C114_paths_partial signed sort hsort (.star :: g) (by simp) hok' none roots hsome hroots hnul
  refine ⟨us, vs, h1, h2, h3, f, h4, fun u hu => ?_⟩
  rw [h5 u hu]
  show _ ↔ ∃ name, NameOf u name ∧ MatchesPat (.star :: g) name
  rw [← matches_name_iff g hslash u]
  simp

/-- C114 for an opening bracket that is not closed: it stands for itself, as if it were behind a backslash.  What is missing: more brackets or minus signs
behind it (`[a-` matches nothing in the C library of the sandbox, nor does `[[.`). -/
theorem C114_bracket_partial (signed : Bool) (sort : List (Bytes × List FtsEntry) → List (Bytes × List FtsEntry))
    (hsort : Sorts (fun a b => natLess signed a.1 b.1) sort) (g g' : List PatPart) (hok : ∀ t ∈ g, t.Ok) (hok' : ∀ t ∈ g', t.Ok)
    (hopen : 91 ∉ patText g' ∧ 93 ∉ patText g' ∧ 45 ∉ patText g')
    (roots : List (Bytes × FsNode)) (hsome : roots ≠ []) (hroots : ∀ r ∈ roots, r.1 ≠ [] ∧ ¬ Unreadable r.2)
    (hnul : ∀ r ∈ roots, ∀ u ∈ filesOf r.1 r.2, 0 ∉ u) :
    ∃ us vs, Listings (natLess signed) roots us ∧ us.Perm (roots.flatMap fun r => filesOf r.1 r.2) ∧
      listTrees (patternOf (patText g ++ ([91] ++ patText g'))) none sort roots = .ok vs ∧
      SelectedBy (fun u => MatchesPat (g ++ .char ⟨91, true⟩ :: g') u) us vs := by
  obtain ⟨us, h1, h2, h3⟩ := (C82_listed_partial signed sort hsort _ none (patternOf_total (patText g ++ ([91] ++ patText g'))) roots).1 hsome hroots
  refine ⟨us, _, h1, h2, h3, _, rfl, fun u hu => ?_⟩
  obtain ⟨r, hr, hu⟩ := List.mem_flatMap.1 (h2.mem_iff.1 hu)
  show _ ↔ MatchesPat (g ++ .char ⟨91, true⟩ :: g') u
  rw [← fnmatch_open g g' hok hok' hopen.2.1 u (hnul r hr u hu)]
  have hne : (patText g ++ ([91] ++ patText g')).isEmpty = false := by simp
  simp [Passes, patternOf, hne]

/-- C114: a pattern that ends in a backslash matches no file.  (Missing: the empty list of paths, `C82_empty_violated`.) -/
theorem C114_backslash_partial (signed : Bool) (sort : List (Bytes × List FtsEntry) → List (Bytes × List FtsEntry))
    (hsort : Sorts (fun a b => natLess signed a.1 b.1) sort) (g : List PatPart) (hok : ∀ t ∈ g, t.Ok) (predicate : Option (Bytes → Bool))
    (roots : List (Bytes × FsNode)) (hsome : roots ≠ []) (hroots : ∀ r ∈ roots, r.1 ≠ [] ∧ ¬ Unreadable r.2) :
    listTrees (patternOf (patText g ++ [92])) predicate sort roots = .ok [] := by
  obtain ⟨us, h1, h2, h3⟩ := (C82_listed_partial signed sort hsort _ predicate (patternOf_total (patText g ++ [92])) roots).1 hsome hroots
  rw [h3]
  have hne : (patText g ++ [92]).isEmpty = false := by simp
  congr 1
  rw [List.filter_eq_nil_iff]
  intro u _
  simp [Passes, patternOf, hne, fnmatch_backslash g hok u]

/-- C114: without a pattern (the empty one) every file is listed that satisfies the predicate.  (Missing: the empty list of paths, `C82_empty_violated`.) -/
theorem C114_all_partial (signed : Bool) (sort : List (Bytes × List FtsEntry) → List (Bytes × List FtsEntry))
    (hsort : Sorts (fun a b => natLess signed a.1 b.1) sort) (predicate : Option (Bytes → Bool))
    (roots : List (Bytes × FsNode)) (hsome : roots ≠ []) (hroots : ∀ r ∈ roots, r.1 ≠ [] ∧ ¬ Unreadable r.2) :
    ∃ us vs, Listings (natLess signed) roots us ∧ us.Perm (roots.flatMap fun r => filesOf r.1 r.2) ∧
      listTrees (patternOf []) predicate sort roots = .ok vs ∧ SelectedBy (fun u => ∀ p, predicate = some p → p u = true) us vs := by
  obtain ⟨us, h1, h2, h3⟩ := (C82_listed_partial signed sort hsort _ predicate (patternOf_total []) roots).1 hsome hroots
  refine ⟨us, _, h1, h2, h3, _, rfl, fun u _ => ?_⟩
  cases predicate <;> simp [Passes, patternOf]

/-- C114 for objects: with a pattern `list_s3_objects` gives exactly the objects whose whole URIs match it, in natural order. -/
theorem C114_objects {T : Type} (signed : Bool) (server : Bytes → Bytes → Option T → List Bytes × Option T) (fuel : Nat)
    (g : List PatPart) (hg : g ≠ []) (hok : ∀ t ∈ g, t.Ok) (sort : List Bytes → List Bytes) (hsort : Sorts (natLess signed) sort)
    (pages : Bytes → Bytes → List (List Bytes)) (parts : List (Bytes × Bytes × Bytes))
    (h : ∀ q ∈ parts, splitPrefix q.1 = .ok (q.2.1, q.2.2) ∧ Pages (server q.2.1 q.2.2) none (pages q.2.1 q.2.2) ∧
      (pages q.2.1 q.2.2).length ≤ fuel)
    (hnul : ∀ q ∈ parts, 0 ∉ q.2.1 ∧ ∀ key ∈ (pages q.2.1 q.2.2).flatten, 0 ∉ key) :
    ∃ us vs, listS3 server fuel (patternOf (patText g)) none sort (parts.map (·.1)) = .ok us ∧ Sorted (natLess signed) us ∧
      us.Perm vs ∧
      SelectedBy (MatchesPat g) (parts.flatMap fun q => (pages q.2.1 q.2.2).flatten.map (s3Scheme ++ q.2.1 ++ [47] ++ ·)) vs := by
  obtain ⟨us, h1, h2, h3⟩ := C51_listing signed server fuel _ none sort hsort pages (patternOf_total (patText g)) parts h
  refine ⟨us, _, h1, h2, h3, Passes (patternOf (patText g)) none, ?_, fun u hu => ?_⟩
  · rw [List.filter_flatMap]
  · obtain ⟨q, hq, hu⟩ := List.mem_flatMap.1 hu
    obtain ⟨key, hk, rfl⟩ := List.mem_map.1 hu
    refine patternOf_passes g hg hok _ ?_
    have hn := hnul q hq
    simp only [List.mem_append, not_or]
    exact ⟨⟨⟨by decide, hn.1⟩, by decide⟩, hn.2 key hk⟩

/-- C114 fails: the pattern is compared with the path, not with the name.  No pattern that stands for single characters other than
the slash (`a.csv`, `part-0[0-9].csv`) selects a file below a directory, whatever the names of the files are. -/
theorem C114_name_violated (signed : Bool) (sort : List (Bytes × List FtsEntry) → List (Bytes × List FtsEntry))
    (hsort : Sorts (fun a b => natLess signed a.1 b.1) sort) (g : List PatPart) (hg : g ≠ []) (hok : ∀ t ∈ g, t.Ok)
    (hslash : ∀ t ∈ g, NoSlash t) (roots : List (Bytes × FsNode)) (hsome : roots ≠ []) (hroots : ∀ r ∈ roots, r.1 ≠ [] ∧ ¬ Unreadable r.2)
    (hnul : ∀ r ∈ roots, ∀ u ∈ filesOf r.1 r.2, 0 ∉ u) (hdir : ∀ r ∈ roots, ∀ u ∈ filesOf r.1 r.2, 47 ∈ u) :
    listTrees (patternOf (patText g)) none sort roots = .ok [] := by
  obtain ⟨us, vs, h1, h2, h3, f, rfl, h5⟩ := C114_paths_partial signed sort hsort g hg hok none roots hsome hroots hnul
  rw [h3]
  congr 1
  rw [List.filter_eq_nil_iff]
  intro u hu hf
  obtain ⟨r, hr, hm⟩ := List.mem_flatMap.1 (h2.mem_iff.1 hu)
  exact matchesPat_noSlash hslash ((h5 u hu).1 hf).1 (hdir r hr u hm)

/-- `a`, as it is. -/
def exChar (c : UInt8) : PatPart := .char ⟨c, false⟩

theorem exChar_noSlash (c : UInt8) (h : c ≠ 47) : NoSlash (exChar c) := by
  intro s hs
  cases hs
  exact ⟨c, rfl, h⟩

/-- A directory with the file `b`, in it a directory `a` with files `b` and `c`. -/
def exDir : FsNode := .dir [([98], .file), ([97], .dir [([98], .file), ([99], .file)])]

theorem exDir_files : filesOf [100] exDir = [[100, 47, 98], [100, 47, 97, 47, 98], [100, 47, 97, 47, 99]] := by
  have h1 : below [100] [98] = [100, 47, 98] := by decide
  have h2 : below [100] [97] = [100, 47, 97] := by decide
  have h3 : below [100, 47, 97] [98] = [100, 47, 97, 47, 98] := by decide
  have h4 : below [100, 47, 97] [99] = [100, 47, 97, 47, 99] := by decide
  simp [exDir, filesOf, h1, h2, h3, h4, List.attach, List.attachWith, List.pmap]

theorem exDir_readable : ¬ Unreadable exDir := by
  intro h
  cases h with
  | inside _ e he hu =>
    simp only [List.mem_cons, List.not_mem_nil, or_false] at he
    rcases he with rfl | rfl
    · cases hu
    · cases hu with
      | inside _ e he hu =>
        simp only [List.mem_cons, List.not_mem_nil, or_false] at he
        rcases he with rfl | rfl <;> cases hu

/-- The hypotheses are met: `b` is the name of two files in the directory `d`, and the pattern `b` finds none of them; `*b` finds both. -/
example : MatchesPat [exChar 98] [98] ∧ NameOf [100, 47, 98] [98] ∧ [100, 47, 98] ∈ filesOf [100] exDir ∧
    listTrees (patternOf (patText [exChar 98])) none (qsortNames true) [([100], exDir)] = .ok [] := by
  refine ⟨.cons _ _ [98] [] (.char ⟨98, false⟩) .nil, ⟨by decide, .inr ⟨[100], rfl⟩⟩, by simp [exDir_files],
    C114_name_violated true (qsortNames true) (qsortNames_sorts true) [exChar 98] (by simp) ?_ ?_ _ (by simp) ?_ ?_ ?_⟩
  · simp [exChar, PatPart.Ok, PatChar.Ok]
  · simp only [List.mem_singleton, forall_eq]; exact exChar_noSlash 98 (by decide)
  · simp only [List.mem_singleton, forall_eq]; exact ⟨by simp, exDir_readable⟩
  · simp only [List.mem_singleton, forall_eq, exDir_files]; decide
  · simp only [List.mem_singleton, forall_eq, exDir_files]; decide

/-- C114 fails in the other direction as well: `*a*b` selects `d/a/b`, a file called `b`, because of the directory it is in. -/
theorem C114_directory_violated : ∃ (g : List PatPart) (u name : Bytes) (vs : List Bytes), (∀ t ∈ g, t.Ok) ∧ NameOf u name ∧
    ¬ MatchesPat g name ∧ u ∈ vs ∧ (∀ v ∈ vs, v ∈ filesOf [100] exDir) ∧
    listTrees (patternOf (patText g)) none (qsortNames true) [([100], exDir)] = .ok vs := by
  have hok : ∀ t ∈ [PatPart.star, exChar 97, .star, exChar 98], t.Ok := by
    simp [exChar, PatPart.Ok, PatChar.Ok]
  have hnul : ∀ r ∈ [(([100] : Bytes), exDir)], ∀ u ∈ filesOf r.1 r.2, 0 ∉ u := by
    simp only [List.mem_singleton, forall_eq, exDir_files]; decide
  obtain ⟨us, vs, _, h2, h3, f, rfl, h5⟩ := C114_paths_partial true (qsortNames true) (qsortNames_sorts true) _ (by simp) hok none
    [([100], exDir)] (by simp) (by simp only [List.mem_singleton, forall_eq]; exact ⟨by simp, exDir_readable⟩) hnul
  have hus : ∀ v, v ∈ us ↔ v ∈ filesOf [100] exDir := fun v => by rw [h2.mem_iff]; simp
  refine ⟨_, [100, 47, 97, 47, 98], [98], _, hok, ⟨by decide, .inr ⟨[100, 47, 97], rfl⟩⟩, ?_, ?_, ?_, h3⟩
  · rw [← globMatch_iff]; simp [patTok, exChar, globMatch]
  · have hu : ([100, 47, 97, 47, 98] : Bytes) ∈ us := (hus _).2 (by simp [exDir_files])
    refine List.mem_filter.2 ⟨hu, (h5 _ hu).2 ⟨?_, by simp⟩⟩
    rw [← globMatch_iff]; simp [patTok, exChar, globMatch]
  · intro v hv
    exact (hus v).1 (List.mem_filter.1 hv).1

/-- `*b` is a pattern of `C114_names_partial`; it matches the name `b` and not `c`.  `*[!/a-c].x` is one too. -/
example : (∀ t ∈ [exChar 98], t.Ok) ∧ (∀ t ∈ [exChar 98], NoSlash t) ∧ MatchesPat [.star, exChar 98] [98] ∧
    ¬ MatchesPat [.star, exChar 98] [99] ∧ patText [.star, exChar 98] = [42, 98] ∧
    NoSlash (.set true [(⟨47, true⟩, none), (⟨97, false⟩, some ⟨99, false⟩)]) ∧
    (PatPart.set true [(⟨47, true⟩, none), (⟨97, false⟩, some ⟨99, false⟩)]).Ok ∧
    PatPart.bytes (.set true [(⟨47, true⟩, none), (⟨97, false⟩, some ⟨99, false⟩)]) = [91, 33, 92, 47, 97, 45, 99, 93] := by
  refine ⟨by simp [exChar, PatPart.Ok, PatChar.Ok], ?_, .cons _ _ [] [98] (.star []) (.cons _ _ [98] [] (.char ⟨98, false⟩) .nil),
    ?_, by decide, ?_, ?_, by decide⟩
  · simp only [List.mem_singleton, forall_eq]; exact exChar_noSlash 98 (by decide)
  · rw [← globMatch_iff]; simp [patTok, exChar, globMatch]
  · intro s hs
    cases hs with
    | outside _ c hc =>
      refine ⟨c, rfl, ?_⟩
      rintro rfl
      exact hc ⟨_, List.mem_cons_self, rfl⟩
  · simp [PatPart.Ok, PatChar.Ok]

/-- `*[b` is a pattern of `C114_bracket_partial`: it matches `d/[b` and not `d/b`.  `*\` is one of `C114_backslash_partial`. -/
example : (91 ∉ patText [exChar 98] ∧ 93 ∉ patText [exChar 98] ∧ 45 ∉ patText [exChar 98]) ∧ PatPart.star.Ok ∧
    patText [.star] ++ ([91] ++ patText [exChar 98]) = [42, 91, 98] ∧ patText [.star] ++ [92] = [42, 92] ∧
    MatchesPat ([.star] ++ .char ⟨91, true⟩ :: [exChar 98]) [100, 47, 91, 98] ∧ ¬ MatchesPat ([.star] ++ .char ⟨91, true⟩ :: [exChar 98]) [100, 47, 98] := by
  refine ⟨by decide, trivial, by decide, by decide, ?_, ?_⟩
  · rw [← globMatch_iff]; simp [patTok, exChar, globMatch]
  · rw [← globMatch_iff]; simp [patTok, exChar, globMatch]

end Mlio
