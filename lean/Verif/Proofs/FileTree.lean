import Verif.Spec.FileTree
import Verif.Proofs.Stores

/-!
# Listing a directory tree: proofs
-/

namespace Mlio
open Spec

theorem perm_of_map {α β : Type} (f : α → β) : ∀ (xs : List α) (l : List β), l.Perm (xs.map f) →
    ∃ xs' : List α, xs'.Perm xs ∧ l = xs'.map f := by
  intro xs
  induction xs with
  | nil =>
    intro l h
    exact ⟨[], List.Perm.refl _, List.Perm.eq_nil h⟩
  | cons a xs ih =>
    intro l h
    have hm : f a ∈ l := h.mem_iff.2 (by simp)
    obtain ⟨s, t, rfl⟩ := List.append_of_mem hm
    have h2 : (s ++ t).Perm (xs.map f) :=
      (List.perm_middle.symm.trans h).cons_inv
    obtain ⟨xs', h3, h4⟩ := ih _ h2
    obtain ⟨s', t', rfl, rfl, rfl⟩ := List.append_eq_map_iff.1 h4
    exact ⟨s' ++ a :: t', List.perm_middle.trans (h3.cons a), by simp⟩

theorem sorted_of_map {α β : Type} (lt : β → β → Bool) (f : α → β) (xs : List α) :
    Sorted lt (xs.map f) ↔ Sorted (fun a b => lt (f a) (f b)) xs := by
  unfold Sorted
  rw [List.pairwise_map]

/-- The order of names, for entries. -/
theorem byName_strictWeak {α : Type} {lt : Bytes → Bytes → Bool} (h : StrictWeak lt) :
    StrictWeak (fun a b : Bytes × α => lt a.1 b.1) :=
  ⟨fun a => h.irrefl a.1, fun a b c => h.trans a.1 b.1 c.1, fun a b c => h.incomp a.1 b.1 c.1⟩

/-- The `qsort` sorts by names. -/
def SortsNames (lt : Bytes → Bytes → Bool) (sort : List (Bytes × List FtsEntry) → List (Bytes × List FtsEntry)) : Prop :=
  Sorts (fun a b => lt a.1 b.1) sort

/-- The files among the entries of a traversal. -/
def ftsFiles (es : List FtsEntry) : List Bytes := es.filterMap fun | .file p => some p | _ => none

theorem ftsFiles_append (a b : List FtsEntry) : ftsFiles (a ++ b) = ftsFiles a ++ ftsFiles b := List.filterMap_append

theorem ftsFiles_flatMap {α : Type} (xs : List α) (f : α → List FtsEntry) :
    ftsFiles (xs.flatMap f) = xs.flatMap fun x => ftsFiles (f x) := by
  induction xs with
  | nil => rfl
  | cons x xs ih => rw [List.flatMap_cons, List.flatMap_cons, ftsFiles_append, ih]

theorem joinPath_below (p name : Bytes) : joinPath p name = below p name := by
  unfold joinPath below
  have h : p.getLast? = some 47 ↔ [47] <:+ p := by
    constructor
    · intro h
      obtain ⟨q, rfl⟩ := List.getLast?_eq_some_iff.1 h
      exact ⟨q, rfl⟩
    · rintro ⟨q, rfl⟩
      simp
  simp only [h, List.append_assoc, List.cons_append, List.nil_append]

theorem walk_dir (sort) (p : Bytes) (es : List (Bytes × FsNode)) : walk sort p (.dir es) =
    .other p :: ((sort (es.map fun e => (e.1, walk sort (below p e.1) e.2))).flatMap fun e => e.2) ++ [.other p] := by
  have h := List.attach_map_val (l := es) (f := fun e : Bytes × FsNode => (e.1, walk sort (joinPath p e.1) e.2))
  rw [walk, h]
  simp only [joinPath_below]

theorem filesOf_dir (p : Bytes) (es : List (Bytes × FsNode)) :
    filesOf p (.dir es) = es.flatMap fun e => filesOf (below p e.1) e.2 := by
  rw [filesOf, List.flatMap, List.flatMap]
  congr 1
  exact List.attach_map_val (l := es) (f := fun e : Bytes × FsNode => filesOf (below p e.1) e.2)

/-- Induction over trees. -/
theorem FsNode.induct {P : FsNode → Prop} (file : P .file) (special : P .special) (broken : P .broken) (failing : P .failing)
    (dir : ∀ es : List (Bytes × FsNode), (∀ e ∈ es, P e.2) → P (.dir es)) : ∀ x, P x := by
  have key : ∀ n x, sizeOf x ≤ n → P x := by
    intro n
    induction n with
    | zero => intro x h; cases x <;> simp at h
    | succ n ih =>
      intro x h
      cases x with
      | file => exact file
      | special => exact special
      | broken => exact broken
      | failing => exact failing
      | dir es =>
        refine dir es fun e he => ih e.2 ?_
        have h1 := List.sizeOf_lt_of_mem he
        have h2 : sizeOf e = 1 + sizeOf e.1 + sizeOf e.2 := rfl
        simp only [FsNode.dir.sizeOf_spec] at h
        omega
  exact fun x => key _ x (Nat.le_refl _)

/-- Entries that were sorted with what is delivered for them. -/
theorem sorted_entries {lt : Bytes → Bytes → Bool} (hw : StrictWeak lt) {sort} (hs : SortsNames lt sort)
    (es : List (Bytes × FsNode)) (f : Bytes × FsNode → List FtsEntry) :
    ∃ es', es'.Perm es ∧ Sorted (fun a b => lt a.1 b.1) es' ∧
      (sort (es.map fun e => (e.1, f e))).flatMap (fun e => e.2) = es'.flatMap f := by
  obtain ⟨h1, h2⟩ := hs (byName_strictWeak hw) (es.map fun e => (e.1, f e))
  obtain ⟨es', h3, h4⟩ := perm_of_map _ _ _ h1
  rw [h4] at h2 ⊢
  refine ⟨es', h3, (sorted_of_map (fun a b : Bytes × List FtsEntry => lt a.1 b.1) _ _).1 h2, ?_⟩
  rw [List.flatMap_map]

theorem walk_listing {lt : Bytes → Bytes → Bool} (hw : StrictWeak lt) {sort} (hs : SortsNames lt sort) :
    ∀ x p, (Unreadable x → .error ∈ walk sort p x) ∧
      (¬ Unreadable x → .error ∉ walk sort p x ∧ Listing lt p x (ftsFiles (walk sort p x))) := by
  intro x
  induction x using FsNode.induct with
  | file =>
    intro p
    refine ⟨(fun h => by cases h), fun _ => ?_⟩
    rw [walk]
    exact ⟨by simp, .file p⟩
  | special =>
    intro p
    refine ⟨(fun h => by cases h), fun _ => ?_⟩
    rw [walk]
    exact ⟨by simp, .special p⟩
  | broken =>
    intro p
    refine ⟨(fun h => by cases h), fun _ => ?_⟩
    rw [walk]
    exact ⟨by simp, .broken p⟩
  | failing =>
    intro p
    refine ⟨fun _ => by rw [walk]; simp, fun h => absurd .here h⟩
  | dir es ih =>
    intro p
    rw [walk_dir]
    obtain ⟨es', h1, h2, h3⟩ := sorted_entries hw hs es fun e => walk sort (below p e.1) e.2
    rw [h3]
    constructor
    · intro h
      cases h with
      | inside _ e he hu =>
        simp only [List.cons_append, List.mem_cons, List.mem_append, List.mem_flatMap]
        exact Or.inr (Or.inl ⟨e, h1.mem_iff.2 he, (ih e he (below p e.1)).1 hu⟩)
    · intro h
      have hn : ∀ e ∈ es, ¬ Unreadable e.2 := fun e he hu => h (.inside es e he hu)
      constructor
      · simp only [List.cons_append, List.mem_cons, List.mem_append, List.mem_flatMap, not_or]
        refine ⟨by simp, ?_, by simp⟩
        rintro ⟨e, he, hm⟩
        have he := h1.mem_iff.1 he
        exact ((ih e he (below p e.1)).2 (hn e he)).1 hm
      · have : ftsFiles (.other p :: es'.flatMap (fun e => walk sort (below p e.1) e.2) ++ [.other p]) =
            es'.flatMap fun e => ftsFiles (walk sort (below p e.1) e.2) := by
          rw [List.cons_append]
          show ftsFiles (_ ++ _) = _
          rw [ftsFiles_append, ftsFiles_flatMap]
          simp [ftsFiles]
        rw [this]
        exact .dir p es es' _ h1 h2 fun e he => ((ih e he (below p e.1)).2 (hn e he)).2

theorem listTrees_ok {lt : Bytes → Bytes → Bool} (hw : StrictWeak lt) {sort} (hs : SortsNames lt sort)
    (pattern : Option (Bytes → Option Bool)) (predicate : Option (Bytes → Bool))
    (hpat : ∀ u f, pattern = some f → f u ≠ none) (roots : List (Bytes × FsNode)) (hsome : roots ≠ [])
    (hne : ∀ r ∈ roots, r.1 ≠ []) :
    ((∀ r ∈ roots, ¬ Unreadable r.2) → ∃ us, Listings lt roots us ∧
      listTrees pattern predicate sort roots = .ok (us.filter (Passes pattern predicate))) ∧
    ((∃ r ∈ roots, Unreadable r.2) → listTrees pattern predicate sort roots = .err .systemError) := by
  unfold listTrees
  rw [if_neg (by simpa using hsome), if_neg (by
    rw [List.any_eq_true]
    rintro ⟨r, hr, he⟩
    exact hne r hr (List.isEmpty_iff.1 he))]
  obtain ⟨rs, h1, h2, h3⟩ := sorted_entries hw hs roots fun r => walk sort r.1 r.2
  rw [h3]
  constructor
  · intro hr
    refine ⟨rs.flatMap fun r => ftsFiles (walk sort r.1 r.2), ⟨rs, _, h1, h2, fun r hm => ((walk_listing hw hs r.2 r.1).2 (hr r hm)).2,
      rfl⟩, ?_⟩
    rw [listFiles_ok pattern predicate hpat _ (by
      intro hm
      obtain ⟨r, hm, he⟩ := List.mem_flatMap.1 hm
      exact ((walk_listing hw hs r.2 r.1).2 (hr r (h1.mem_iff.1 hm))).1 he)]
    rw [← ftsFiles_flatMap]
    rfl
  · rintro ⟨r, hm, hu⟩
    exact listFiles_error pattern predicate hpat _ (List.mem_flatMap.2 ⟨r, h1.mem_iff.2 hm, (walk_listing hw hs r.2 r.1).1 hu⟩)

/-! ## Consequences -/

theorem flatMap_perm {α β : Type} (xs : List α) (f g : α → List β) (h : ∀ x ∈ xs, (f x).Perm (g x)) :
    (xs.flatMap f).Perm (xs.flatMap g) := by
  induction xs with
  | nil => exact List.Perm.refl _
  | cons x xs ih =>
    rw [List.flatMap_cons, List.flatMap_cons]
    exact (h x (by simp)).append (ih fun y hy => h y (by simp [hy]))

theorem flatMap_congr_mem {α β : Type} {xs : List α} {f g : α → List β} (h : ∀ x ∈ xs, f x = g x) :
    xs.flatMap f = xs.flatMap g := by
  induction xs with
  | nil => rfl
  | cons x xs ih => rw [List.flatMap_cons, List.flatMap_cons, h x (by simp), ih fun y hy => h y (by simp [hy])]

theorem perm_flatMap {α β : Type} {xs ys : List α} (h : xs.Perm ys) (f : α → List β) : (xs.flatMap f).Perm (ys.flatMap f) :=
  List.Perm.flatMap_right f h

theorem listing_perm {lt : Bytes → Bytes → Bool} {p : Bytes} {x : FsNode} {us : List Bytes} (h : Listing lt p x us) :
    us.Perm (filesOf p x) := by
  induction h with
  | file p => rw [filesOf]
  | special p => rw [filesOf] <;> simp
  | broken p => rw [filesOf] <;> simp
  | dir p es es' list h1 _ _ ih =>
    rw [filesOf_dir]
    exact (perm_flatMap h1 list).trans (flatMap_perm es _ _ ih)

theorem listings_perm {lt : Bytes → Bytes → Bool} {roots : List (Bytes × FsNode)} {us : List Bytes} (h : Listings lt roots us) :
    us.Perm (roots.flatMap fun r => filesOf r.1 r.2) := by
  obtain ⟨rs, list, h1, _, h3, rfl⟩ := h
  exact (perm_flatMap h1 list).trans (flatMap_perm roots _ _ fun r hr => listing_perm (h3 r hr))

/-- Without ties there is only one way to sort. -/
theorem sorted_unique {α : Type} {lt : Bytes → Bytes → Bool} (hw : StrictWeak lt) {xs ys zs : List (Bytes × α)}
    (ht : zs.Pairwise fun a b => lt a.1 b.1 = true ∨ lt b.1 a.1 = true)
    (hx : xs.Perm zs) (hy : ys.Perm zs) (sx : Sorted (fun a b => lt a.1 b.1) xs) (sy : Sorted (fun a b => lt a.1 b.1) ys) :
    xs = ys := by
  have strict : ∀ l : List (Bytes × α), l.Perm zs → Sorted (fun a b => lt a.1 b.1) l →
      l.Pairwise fun a b => lt a.1 b.1 = true := by
    intro l hl sl
    have h := hl.symm.pairwise ht (fun h => h.symm)
    refine List.Pairwise.imp₂ ?_ h sl
    intro a b h1 h2
    rcases h1 with h1 | h1
    · exact h1
    · have h2 : lt b.1 a.1 = false := h2
      rw [h2] at h1
      cases h1
  refine List.Perm.eq_of_pairwise (le := fun a b => lt a.1 b.1 = true) ?_ (strict xs hx sx) (strict ys hy sy) (hx.trans hy.symm)
  intro a b _ _ h1 h2
  have := hw.trans _ _ _ h1 h2
  rw [hw.irrefl] at this
  cases this

theorem listing_unique {lt : Bytes → Bytes → Bool} (hw : StrictWeak lt) {p : Bytes} {x : FsNode} {us : List Bytes}
    (h : Listing lt p x us) : Ordered lt x → ∀ y, Reordered x y → ∀ vs, Listing lt p y vs → us = vs := by
  induction h with
  | file p => intro _ y hr vs hv; cases hr; cases hv; rfl
  | special p => intro _ y hr vs hv; cases hr; cases hv; rfl
  | broken p => intro _ y hr vs hv; cases hr; cases hv; rfl
  | dir p es es' list h1 h2 _ ih =>
    intro ho y hr vs hv
    cases ho with
    | dir _ ht hos =>
      have key : ∀ (es1 : List (Bytes × FsNode)) (other : Bytes × FsNode → FsNode), es1.Perm es →
          (∀ e ∈ es, Reordered e.2 (other e)) → ∀ vs, Listing lt p (.dir (es1.map fun e => (e.1, other e))) vs →
          es'.flatMap list = vs := by
        intro es1 other hp hother vs hv
        cases hv with
        | dir _ _ fs list2 g1 g2 g3 =>
          obtain ⟨es2, k1, rfl⟩ := perm_of_map _ _ _ g1
          have k2 := (sorted_of_map (fun a b : Bytes × FsNode => lt a.1 b.1) _ _).1 g2
          have e := sorted_unique hw ht (k1.trans hp) h1 k2 h2
          subst e
          rw [List.flatMap_map]
          refine flatMap_congr_mem ?_
          intro e he
          have he' := h1.mem_iff.1 he
          refine ih e he' (hos e he') _ (hother e he') _ (g3 _ (List.mem_map.2 ⟨e, hp.mem_iff.2 he', rfl⟩))
      cases hr with
      | same => exact key es (fun e => e.2) (List.Perm.refl _) (fun e _ => .same _) vs (by simpa using hv)
      | dir _ es1 other hp hother => exact key es1 other hp hother vs hv

theorem listings_unique {lt : Bytes → Bytes → Bool} (hw : StrictWeak lt) {roots roots' : List (Bytes × FsNode)}
    (ht : NoTies lt roots) (ho : ∀ r ∈ roots, Ordered lt r.2) (other : Bytes × FsNode → FsNode)
    (hr : ∀ r ∈ roots, Reordered r.2 (other r)) (hp : roots'.Perm roots) {us vs : List Bytes} (hu : Listings lt roots us)
    (hv : Listings lt (roots'.map fun r => (r.1, other r)) vs) : us = vs := by
  obtain ⟨rs, list, h1, h2, h3, rfl⟩ := hu
  obtain ⟨ss, list2, g1, g2, g3, rfl⟩ := hv
  obtain ⟨ss', k1, rfl⟩ := perm_of_map _ _ _ g1
  have k2 := (sorted_of_map (fun a b : Bytes × FsNode => lt a.1 b.1) _ _).1 g2
  have e := sorted_unique hw ht (k1.trans hp) h1 k2 h2
  subst e
  rw [List.flatMap_map]
  refine flatMap_congr_mem ?_
  intro r hm
  have hm := h1.mem_iff.1 hm
  exact listing_unique hw (h3 r hm) (ho r hm) _ (hr r hm) _ (g3 _ (List.mem_map.2 ⟨r, hp.mem_iff.2 hm, rfl⟩))

theorem reordered_unreadable {x y : FsNode} (h : Reordered x y) : Unreadable x ↔ Unreadable y := by
  induction h with
  | same => exact Iff.rfl
  | dir es es' other hp _ ih =>
    constructor
    · intro h
      cases h with
      | inside _ e he hu =>
        exact .inside _ (e.1, other e) (List.mem_map.2 ⟨e, hp.mem_iff.2 he, rfl⟩) ((ih e he).1 hu)
    · intro h
      cases h with
      | inside _ e he hu =>
        obtain ⟨e', he', rfl⟩ := List.mem_map.1 he
        have he' := hp.mem_iff.1 he'
        exact .inside _ e' he' ((ih e' he').2 hu)

theorem listTrees_same {lt : Bytes → Bytes → Bool} (hw : StrictWeak lt) {sort sort'} (hs : SortsNames lt sort)
    (hs' : SortsNames lt sort') (pattern : Option (Bytes → Option Bool)) (predicate : Option (Bytes → Bool))
    (hpat : ∀ u f, pattern = some f → f u ≠ none) (roots roots' : List (Bytes × FsNode))
    (ht : NoTies lt roots) (ho : ∀ r ∈ roots, Ordered lt r.2) (other : Bytes × FsNode → FsNode)
    (hr : ∀ r ∈ roots, Reordered r.2 (other r)) (hp : roots'.Perm roots) :
    listTrees pattern predicate sort roots = listTrees pattern predicate sort' (roots'.map fun r => (r.1, other r)) := by
  by_cases hsome : roots = []
  · subst hsome
    rw [List.perm_nil.1 hp]
    rfl
  have hsome' : (roots'.map fun r => (r.1, other r)) ≠ [] := by
    intro h
    rw [List.map_eq_nil_iff] at h
    subst h
    exact hsome (List.nil_perm.1 hp)
  by_cases hne : ∀ r ∈ roots, r.1 ≠ []
  · have hne' : ∀ r ∈ roots'.map fun r => (r.1, other r), r.1 ≠ [] := by
      intro r hm
      obtain ⟨r', hm', rfl⟩ := List.mem_map.1 hm
      exact hne r' (hp.mem_iff.1 hm')
    obtain ⟨h1, h2⟩ := listTrees_ok hw hs pattern predicate hpat roots hsome hne
    obtain ⟨g1, g2⟩ := listTrees_ok hw hs' pattern predicate hpat _ hsome' hne'
    by_cases hu : ∃ r ∈ roots, Unreadable r.2
    · rw [h2 hu, g2]
      obtain ⟨r, hm, hu⟩ := hu
      exact ⟨(r.1, other r), List.mem_map.2 ⟨r, hp.mem_iff.2 hm, rfl⟩, (reordered_unreadable (hr r hm)).1 hu⟩
    · obtain ⟨us, k1, k2⟩ := h1 fun r hm hx => hu ⟨r, hm, hx⟩
      obtain ⟨vs, j1, j2⟩ := g1 fun r hm hx => by
        obtain ⟨r', hm', rfl⟩ := List.mem_map.1 hm
        have hm' := hp.mem_iff.1 hm'
        exact hu ⟨r', hm', (reordered_unreadable (hr r' hm')).2 hx⟩
      rw [k2, j2, listings_unique hw ht ho other hr hp k1 j1]
  · have h0 : ∃ r ∈ roots, r.1 = [] := by
      refine Classical.byContradiction fun hn => hne fun r hm he => hn ⟨r, hm, he⟩
    obtain ⟨r, hm, he⟩ := h0
    unfold listTrees
    rw [if_neg (by simpa using hsome), if_pos (List.any_eq_true.2 ⟨r, hm, by simp [he]⟩), if_neg (by simpa using hsome'),
      if_pos (List.any_eq_true.2 ⟨(r.1, other r), List.mem_map.2 ⟨r, hp.mem_iff.2 hm, rfl⟩, by simp [he]⟩)]

/-- Lists with the same elements, sorted by an order in which only equal elements tie. -/
theorem sorted_same {α : Type} {lt : α → α → Bool} {xs ys : List α} (hp : xs.Perm ys)
    (ht : ∀ a ∈ xs, ∀ b ∈ xs, a ≠ b → lt a b = true ∨ lt b a = true) (sx : Sorted lt xs) (sy : Sorted lt ys) : xs = ys := by
  refine List.Perm.eq_of_pairwise (le := fun a b => lt b a = false) ?_ sx sy hp
  intro a b ha hb h1 h2
  refine Classical.byContradiction fun hne => ?_
  rcases ht a ha b (hp.mem_iff.2 hb) hne with h | h
  · rw [h] at h2; cases h2
  · rw [h] at h1; cases h1

/-! ## Names without white space do not tie -/

theorem natLoop_zero (signed : Bool) : ∀ (n : Nat) (a b : Bytes), a.length < n → natLoop signed n a b = 0 →
    a.filter (fun c => !natSpace c) = b.filter (fun c => !natSpace c) := by
  have hf : ∀ s : Bytes, (s.dropWhile natSpace).filter (fun c => !natSpace c) = s.filter (fun c => !natSpace c) := by
    intro s
    induction s with
    | nil => rfl
    | cons c s ih =>
      rw [List.dropWhile_cons]
      split
      · next h => rw [ih, List.filter_cons, if_neg (by simp [h])]
      · rfl
  intro n
  induction n with
  | zero => intro a b h; omega
  | succ n ih =>
    intro a b hlen h
    rw [← hf a, ← hf b]
    have hle : (a.dropWhile natSpace).length ≤ a.length := (List.dropWhile_suffix _).sublist.length_le
    simp only [natLoop] at h
    split at h
    · next hc => exact absurd h hc
    · split at h
      · next h1 h2 => rw [h1, h2]
      · split at h <;> cases h
      · split at h <;> cases h
      · next ca as cb bs h1 h2 =>
        split at h
        · cases h
        · split at h
          · cases h
          · have hc : ca = cb := charVal_inj signed (by omega)
            subst hc
            rw [h1, h2, List.filter_cons, List.filter_cons, ih as bs (by rw [h1] at hle; simp at hle; omega) h]

theorem natLess_total (signed : Bool) {a b : Bytes} (hne : a ≠ b) (ha : ∀ c ∈ a, c ≠ 0 ∧ natSpace c = false)
    (hb : ∀ c ∈ b, c ≠ 0 ∧ natSpace c = false) : natLess signed a b = true ∨ natLess signed b a = true := by
  have hc : ∀ s : Bytes, (∀ c ∈ s, c ≠ 0 ∧ natSpace c = false) → cstr s = s ∧ s.filter (fun c => !natSpace c) = s := by
    intro s hs
    constructor
    · unfold cstr
      induction s with
      | nil => rfl
      | cons c s ih =>
        rw [List.takeWhile_cons, if_pos (by simpa using (hs c (by simp)).1), ih fun c hc => hs c (by simp [hc])]
    · exact List.filter_eq_self.2 fun c hc => by simp [(hs c hc).2]
  have hz : strnatcmp signed a b ≠ 0 := by
    intro h
    unfold strnatcmp at h
    have := natLoop_zero signed _ _ _ (Nat.lt_succ_self _) h
    rw [(hc a ha).1, (hc b hb).1, (hc a ha).2, (hc b hb).2] at this
    exact hne this
  have hs : strnatcmp signed b a = - strnatcmp signed a b := by
    rw [strnatcmp_key, strnatcmp_key, lexCmp_swap]
  simp only [natLess, decide_eq_true_eq]
  omega

theorem plain_total (signed : Bool) {a b : Bytes} (hne : a ≠ b) (ha : PlainName a) (hb : PlainName b) :
    natLess signed a b = true ∨ natLess signed b a = true := by
  have hs : ∀ s, PlainName s → ∀ c ∈ s, c ≠ 0 ∧ natSpace c = false := by
    intro s h c hc
    obtain ⟨k1, k2, k3⟩ := h c hc
    refine ⟨k1, ?_⟩
    have : c.toNat ≠ 32 := fun hh => k2 (UInt8.toNat_inj.1 hh)
    simp only [natSpace, Bool.or_eq_false_iff, beq_eq_false_iff_ne, Bool.and_eq_false_iff, decide_eq_false_iff_not]
    exact ⟨this, by omega⟩
  exact natLess_total signed hne (hs a ha) (hs b hb)

theorem plainNames_noTies (signed : Bool) {es : List (Bytes × FsNode)} (h : PlainNames es) : NoTies (natLess signed) es := by
  have h1 := List.pairwise_map.1 h.1
  unfold NoTies
  refine List.Pairwise.imp_of_mem ?_ h1
  intro a b ha hb hne
  exact plain_total signed hne (h.2 a ha) (h.2 b hb)

theorem plainTree_ordered (signed : Bool) {x : FsNode} (h : PlainTree x) : Ordered (natLess signed) x := by
  induction h with
  | file => exact .file
  | special => exact .special
  | broken => exact .broken
  | failing => exact .failing
  | dir es h1 _ ih => exact .dir es (plainNames_noTies signed h1) ih

end Mlio
