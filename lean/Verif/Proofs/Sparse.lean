import Verif.Spec.Sparse

/-!
# Lemmas about sparse tensors in other libraries
-/

namespace Mlio

open Spec

variable {V : Type}

/-- The values of a column. -/
def colVals (l : List (Int × V)) (j : Int) : List V := (l.filter fun e => decide (e.1 = j)).map Prod.snd

theorem colVals_cons_eq (e : Int × V) (l : List (Int × V)) : colVals (e :: l) e.1 = e.2 :: colVals l e.1 := by
  simp [colVals]

theorem colVals_cons_ne {e : Int × V} {j : Int} (l : List (Int × V)) (h : e.1 ≠ j) : colVals (e :: l) j = colVals l j := by
  simp [colVals, h]

theorem colVals_eq_nil {l : List (Int × V)} {j : Int} (h : ∀ e ∈ l, e.1 ≠ j) : colVals l j = [] := by
  unfold colVals
  rw [List.map_eq_nil_iff, List.filter_eq_nil_iff]
  intro e he
  simpa using h e he

theorem colVals_ne_nil {l : List (Int × V)} {j : Int} (h : colVals l j ≠ []) : ∃ e ∈ l, e.1 = j := by
  unfold colVals at h
  rw [Ne, List.map_eq_nil_iff, List.filter_eq_nil_iff] at h
  simpa using h

/-- What `sumRuns` gives for a sorted list. -/
theorem sumRuns_spec (add : V → V → V) (l : List (Int × V)) (hs : l.Pairwise fun a b => a.1 ≤ b.1) :
    (sumRuns add l).Pairwise (fun a b => a.1 < b.1) ∧
    (∀ g ∈ sumRuns add l, ∃ w ws, colVals l g.1 = w :: ws ∧ g.2 = ws.foldl add w) ∧
    (∀ e ∈ l, ∃ x, (e.1, x) ∈ sumRuns add l) := by
  induction l using sumRuns.induct (add := add) with
  | case1 => simp [sumRuns]
  | case2 e =>
    refine ⟨by simp [sumRuns], ?_, ?_⟩
    · intro g hg
      simp only [sumRuns, List.mem_singleton] at hg
      subst hg
      exact ⟨_, _, colVals_cons_eq _ _, rfl⟩
    · intro e' he'
      simp only [List.mem_singleton] at he'
      subst he'
      exact ⟨e'.2, by simp [sumRuns]⟩
  | case3 e f l heq ih =>
    simp only [List.pairwise_cons, List.mem_cons, forall_eq_or_imp] at hs
    obtain ⟨i1, i2, i3⟩ := ih (by
      simp only [List.pairwise_cons]
      exact ⟨fun a ha => hs.1.2 a ha, hs.2.2⟩)
    rw [sumRuns, if_pos heq]
    refine ⟨i1, ?_, ?_⟩
    · intro g hg
      obtain ⟨w, ws, h1, h2⟩ := i2 g hg
      by_cases hj : e.1 = g.1
      · rw [← hj] at h1 ⊢
        have h1' := (colVals_cons_eq (e.1, add e.2 f.2) l).symm.trans h1
        simp only [List.cons.injEq] at h1'
        refine ⟨e.2, f.2 :: ws, ?_, ?_⟩
        · rw [colVals_cons_eq e (f :: l)]
          rw [heq, colVals_cons_eq f l, ← heq, h1'.2]
        · rw [h2, ← h1'.1]; rfl
      · refine ⟨w, ws, ?_, h2⟩
        rw [colVals_cons_ne (e := (e.1, add e.2 f.2)) l hj] at h1
        rw [colVals_cons_ne _ hj, colVals_cons_ne _ (fun h => hj (heq.trans h)), h1]
    · intro x hx
      simp only [List.mem_cons] at hx i3
      rcases hx with rfl | rfl | hx
      · exact i3 (x.1, add x.2 f.2) (.inl rfl)
      · rw [← heq]; exact i3 (e.1, add e.2 x.2) (.inl rfl)
      · exact i3 x (.inr hx)
  | case4 e f l hne ih =>
    have hs' := hs
    simp only [List.pairwise_cons, List.mem_cons, forall_eq_or_imp] at hs
    have hlt : ∀ x ∈ f :: l, e.1 < x.1 := by
      intro x hx
      have h1 := hs.1.1
      simp only [List.mem_cons] at hx
      rcases hx with rfl | hx
      · omega
      · have := hs.2.1 x hx; omega
    obtain ⟨i1, i2, i3⟩ := ih (List.Pairwise.of_cons hs')
    rw [sumRuns, if_neg hne]
    have hcol : ∀ g ∈ sumRuns add (f :: l), e.1 < g.1 := by
      intro g hg
      obtain ⟨w, ws, h1, _⟩ := i2 g hg
      obtain ⟨x, hx, hxe⟩ := colVals_ne_nil (l := f :: l) (j := g.1) (by rw [h1]; simp)
      rw [← hxe]
      exact hlt x hx
    refine ⟨List.pairwise_cons.mpr ⟨hcol, i1⟩, ?_, ?_⟩
    · intro g hg
      rcases List.mem_cons.mp hg with rfl | hg
      · refine ⟨g.2, [], ?_, rfl⟩
        rw [colVals_cons_eq, colVals_eq_nil]
        intro x hx
        have := hlt x hx
        omega
      · obtain ⟨w, ws, h1, h2⟩ := i2 g hg
        have := hcol g hg
        exact ⟨w, ws, by rw [colVals_cons_ne _ (by omega), h1], h2⟩
    · intro x hx
      rcases List.mem_cons.mp hx with rfl | hx
      · exact ⟨x.2, List.mem_cons.mpr (.inl rfl)⟩
      · obtain ⟨y, hy⟩ := i3 x hx
        exact ⟨y, List.mem_cons_of_mem _ hy⟩

theorem colVals_perm {l l' : List (Int × V)} (h : l.Perm l') (j : Int) : (colVals l j).Perm (colVals l' j) :=
  (h.filter _).map _

/-- The entries of a tensor with two dimensions, from its coordinate vectors. -/
theorem tensorEntries_two (s : List Nat) (data : List V) (a b : List Nat) (ha : a.length = data.length)
    (hb : b.length = data.length) :
    tensorEntries ⟨s, data, [a, b]⟩ = (a.zip (b.zip data)).map fun e => ([e.1, e.2.1], e.2.2) := by
  apply List.ext_getElem
  · simp [tensorEntries, ha, hb]
  · intro k h1 h2
    have hk : k < data.length := by simpa [tensorEntries] using h1
    simp [tensorEntries, List.getD_eq_getElem?_getD, List.getElem?_eq_getElem (show k < a.length by omega),
      List.getElem?_eq_getElem (show k < b.length by omega)]

theorem asSsize_below {n : Nat} (h : n < 2 ^ 63) : asSsize n = n := by
  unfold asSsize
  rw [Nat.mod_eq_of_lt (by unfold W64; omega)]
  simp only
  rw [if_pos h]

theorem scipyIndex_small {rows cols n : Nat} (h : n < max rows cols) : scipyIndex rows cols n = n := by
  unfold scipyIndex wrap32
  split
  · omega
  · rfl

/-- A valid tensor with two dimensions: its coordinate vectors. -/
theorem Spec.CooOk.two {t : CooT V} (h : CooOk t) {r c : Nat} (hs : t.shape = [r, c]) :
    ∃ a b, t = ⟨[r, c], t.data, [a, b]⟩ ∧ a.length = t.data.length ∧ b.length = t.data.length ∧
      (∀ x ∈ a, x < r) ∧ (∀ x ∈ b, x < c) ∧ r < 2 ^ 63 ∧ c < 2 ^ 63 := by
  obtain ⟨s, data, coords⟩ := t
  simp only at hs
  subst hs
  have hr := h.rank
  match coords, hr with
  | [a, b], _ =>
    have ha := h.size a (by simp)
    have hb := h.size b (by simp)
    simp only at ha hb
    have hrange := h.range
    rw [tensorEntries_two _ _ _ _ ha hb] at hrange
    refine ⟨a, b, rfl, ha, hb, ?_, ?_, h.dims r (by simp), h.dims c (by simp)⟩
    · intro x hx
      obtain ⟨k, hk, hkx⟩ := List.mem_iff_getElem.mp hx
      have := hrange ([a[k], b[k]'(by omega)], data[k]'(by omega)) (by
        rw [List.mem_map]
        exact ⟨(a[k], b[k]'(by omega), data[k]'(by omega)), by
          rw [List.mem_iff_getElem]
          exact ⟨k, by simp; omega, by simp⟩, rfl⟩)
      simp only [InShape] at this
      omega
    · intro x hx
      obtain ⟨k, hk, hkx⟩ := List.mem_iff_getElem.mp hx
      have := hrange ([a[k]'(by omega), b[k]], data[k]'(by omega)) (by
        rw [List.mem_map]
        exact ⟨(a[k]'(by omega), b[k], data[k]'(by omega)), by
          rw [List.mem_iff_getElem]
          exact ⟨k, by simp; omega, by simp⟩, rfl⟩)
      simp only [InShape] at this
      omega

theorem map_index_small (r c : Nat) (l : List Nat) (h : ∀ x ∈ l, x < max r c) (h63 : max r c < 2 ^ 63) :
    (l.map asSsize).map (scipyIndex r c) = l.map fun (x : Nat) => (x : Int) := by
  rw [List.map_map]
  apply List.map_congr_left
  intro x hx
  have := h x hx
  simp only [Function.comp_apply]
  rw [asSsize_below (by omega), scipyIndex_small this]

/-- The matrix of a valid tensor with two dimensions. -/
theorem toCooMatrix_two (data : List V) (r c : Nat) (a b : List Nat) (ha : a.length = data.length)
    (hb : b.length = data.length) (har : ∀ x ∈ a, x < r) (hbc : ∀ x ∈ b, x < c) (hr : r < 2 ^ 63) (hc : c < 2 ^ 63) :
    toCooMatrix ⟨[r, c], data, [a, b]⟩ = .ok ⟨r, c, a.map (fun (x : Nat) => (x : Int)), b.map (fun (x : Nat) => (x : Int)), data⟩ := by
  have h1 := map_index_small r c a (fun x hx => by have := har x hx; omega) (by omega)
  have h2 := map_index_small r c b (fun x hx => by have := hbc x hx; omega) (by omega)
  have h3 : scipyCoo r c data (a.map asSsize) (b.map asSsize) =
      .ok ⟨r, c, a.map (fun (x : Nat) => (x : Int)), b.map (fun (x : Nat) => (x : Int)), data⟩ := by
    unfold scipyCoo
    rw [h1, h2]
    simp only [List.length_map, ha, hb]
    rw [if_neg (by simp), if_neg, if_neg]
    · rintro ⟨j, hj, h⟩
      obtain ⟨x, hx, rfl⟩ := List.mem_map.mp hj
      have := hbc x hx
      omega
    · rintro ⟨j, hj, h⟩
      obtain ⟨x, hx, rfl⟩ := List.mem_map.mp hj
      have := har x hx
      omega
  exact h3

/-- The values of a matrix at a position. -/
theorem colVals_rowEntries (data : List V) (r c i j : Nat) (a b : List Nat) (ha : a.length = data.length)
    (hb : b.length = data.length) :
    colVals (CooMatrix.rowEntries ⟨r, c, a.map (fun (x : Nat) => (x : Int)), b.map (fun (x : Nat) => (x : Int)), data⟩ i) j =
      valuesAt ⟨[r, c], data, [a, b]⟩ [i, j] := by
  unfold colVals CooMatrix.rowEntries valuesAt
  rw [tensorEntries_two _ _ _ _ ha hb]
  clear ha hb
  simp only
  induction data generalizing a b with
  | nil => simp
  | cons v data ih =>
    cases a with
    | nil => simp
    | cons x a =>
      cases b with
      | nil => simp
      | cons y b =>
        have hi := ih a b
        simp only [List.map_cons, List.zip_cons_cons, List.filter_cons]
        by_cases h1 : x = i
        · by_cases h2 : y = j
          · subst h1 h2
            simpa using hi
          · have h2' : ¬ (y : Int) = j := by omega
            simpa [h1, h2, h2'] using hi
        · have h1' : ¬ (x : Int) = i := by omega
          simpa [h1, h1'] using hi

theorem rowEntries_col (data : List V) (r c i : Nat) (a b : List Nat) (e : Int × V)
    (he : e ∈ CooMatrix.rowEntries ⟨r, c, a.map (fun (x : Nat) => (x : Int)), b.map (fun (x : Nat) => (x : Int)), data⟩ i) :
    ∃ j : Nat, e.1 = j := by
  unfold CooMatrix.rowEntries at he
  simp only [List.mem_map, List.mem_filter] at he
  obtain ⟨⟨x, y, v⟩, ⟨hz, _⟩, rfl⟩ := he
  have := (List.of_mem_zip (List.of_mem_zip hz).2).1
  obtain ⟨n, _, hn⟩ := List.mem_map.mp this
  exact ⟨n, hn.symm⟩

end Mlio
