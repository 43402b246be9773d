import Verif.Proofs.Sampling

namespace Mlio

/-- A permutation of a mapped list comes from a permutation of the list. -/
theorem perm_map_inv {α β : Type} (f : α → β) {l' : List β} {m : List β} (h : l'.Perm m) :
    ∀ l : List α, m = l.map f → ∃ l0 : List α, l0.Perm l ∧ l' = l0.map f := by
  induction h with
  | nil => intro l e; exact ⟨[], by simp_all, rfl⟩
  | cons x _ ih =>
    intro l e
    cases l with
    | nil => simp at e
    | cons a l =>
      simp at e
      obtain ⟨l0, p, e'⟩ := ih l e.2
      exact ⟨a :: l0, p.cons a, by simp [e.1, e']⟩
  | swap x y m =>
    intro l e
    match l, e with
    | a :: b :: l, e =>
      simp at e
      exact ⟨b :: a :: l, List.Perm.swap a b l, by simp [e]⟩
  | trans _ _ ih1 ih2 =>
    intro l e
    obtain ⟨l1, p1, e1⟩ := ih2 l e
    obtain ⟨l2, p2, e2⟩ := ih1 l1 e1
    exact ⟨l2, p2.trans p1, e2⟩

/-- Remove position `i`, putting the last element in its place. -/
def swapRemove {α : Type} (l : List α) (i : Nat) (last : α) : List α :=
  (if i ≠ l.length - 1 then l.set i last else l).dropLast

theorem swapRemove_map {α β : Type} (f : α → β) (l : List α) (i : Nat) (z : α) :
    swapRemove (l.map f) i (f z) = (swapRemove l i z).map f := by
  unfold swapRemove
  rw [List.length_map]
  split
  · rw [← List.map_set, List.map_dropLast]
  · rw [List.map_dropLast]

theorem set_perm {α : Type} (l : List α) (i : Nat) (h : i < l.length) (z : α) :
    (l ++ [z]).Perm (l[i] :: l.set i z) := by
  have e : l = l.take i ++ l[i] :: l.drop (i + 1) := by
    rw [← List.drop_eq_getElem_cons h, List.take_append_drop]
  rw [List.set_eq_take_append_cons_drop, if_pos h]
  have h1 : (l ++ [z]).Perm (z :: (l.take i ++ l[i] :: l.drop (i + 1))) := by
    rw [← e]
    exact List.perm_append_comm
  refine h1.trans ((List.Perm.cons z List.perm_middle).trans ?_)
  refine (List.Perm.swap _ _ _).trans (List.Perm.cons _ ?_)
  exact List.perm_middle.symm

theorem swapRemove_perm {α : Type} (l : List α) (i : Nat) (h : i < l.length) (z : α)
    (hz : l.getLast? = some z) : l.Perm (l[i] :: swapRemove l i z) := by
  obtain ⟨l', rfl⟩ : ∃ l', l = l' ++ [z] := by
    rw [List.getLast?_eq_some_iff] at hz
    exact hz
  unfold swapRemove
  by_cases hi : i < l'.length
  · rw [if_pos (by simp; omega), List.set_append_left _ _ hi, List.dropLast_concat]
    rw [List.getElem_append_left hi]
    exact set_perm l' i hi z
  · have : i = l'.length := by simp at h; omega
    subst this
    rw [if_neg (by simp), List.dropLast_concat]
    simp only [List.getElem_concat_length]
    exact List.perm_append_comm

namespace Machine
variable {α : Type} {m : Machine α}

/-- Filling the buffer. -/
theorem shuffleFill_yields (R : Rng) (room : Nat) {st : ShuffledState m.σ R.G α} {xs : List α}
    (hi : st.innerHas = true) (h : m.Yields st.inner xs (.ok none)) :
    (room ≤ xs.length → ∃ i, shuffleFill R m room st =
        (.ok (), ⟨i, st.buffer ++ xs.take room, true, st.rng⟩) ∧ m.Yields i (xs.drop room) (.ok none)) ∧
    (xs.length < room → ∃ i, shuffleFill R m room st =
        (.ok (), ⟨i, (R.shuffle st.rng (st.buffer ++ xs)).1, false, (R.shuffle st.rng (st.buffer ++ xs)).2⟩)
        ∧ m.Yields i [] (.ok none)) := by
  induction room generalizing st xs with
  | zero =>
    obtain ⟨i, b, f, g⟩ := st
    simp only at hi
    subst hi
    exact ⟨fun _ => ⟨i, by simp [shuffleFill], by simpa using h⟩, by omega⟩
  | succ n ih =>
    obtain ⟨i, b, f, g⟩ := st
    simp only at hi h
    subst hi
    cases xs with
    | nil =>
      obtain ⟨s', e, h'⟩ := h.read_nil
      refine ⟨by simp, fun _ => ⟨s', ?_, h'⟩⟩
      simp [shuffleFill, e]
    | cons x xs =>
      obtain ⟨s', e, h'⟩ := h.read_cons
      obtain ⟨h1, h2⟩ := ih (st := ⟨s', b ++ [x], true, g⟩) (xs := xs) rfl h'
      constructor
      · intro hl
        obtain ⟨i', e', h''⟩ := h1 (by simpa using hl)
        exact ⟨i', by simp [shuffleFill, e, e'], by simpa using h''⟩
      · intro hl
        obtain ⟨i', e', h''⟩ := h2 (by simpa using hl)
        exact ⟨i', by simp [shuffleFill, e, e'], h''⟩

theorem shuffleFill_done (R : Rng) (room : Nat) (st : ShuffledState m.σ R.G α)
    (hi : st.innerHas = false) : shuffleFill R m room st = (.ok (), st) := by
  cases room <;> simp [shuffleFill, hi]

/-- The tail of an epoch: the buffer is returned from its end. -/
theorem shuffled_drain (R : Rng) (p : ShuffleParams) (hw : p.effWindow ≠ 1)
    (i : m.σ) (b : List α) (g : R.G) :
    (shuffled R p m).Yields ⟨i, b, false, g⟩ b.reverse (.ok none) := by
  refine yields_of (m := shuffled R p m)
    (fun st ys => st.innerHas = false ∧ ys = st.buffer.reverse) (.ok none) ?_ ?_ _ _ ⟨rfl, rfl⟩
  · rintro ⟨i, b, f, g⟩ x xs ⟨hf, hx⟩
    simp only at hf hx
    subst hf
    have hb : b = xs.reverse ++ [x] := by
      have := congrArg List.reverse hx
      simpa using this.symm
    subst hb
    simp [shuffled, shuffledRead, if_neg hw, shuffleFill_done R _ (⟨i, xs.reverse ++ [x], false, g⟩ :
      ShuffledState m.σ R.G α) rfl]
  · rintro ⟨i, b, f, g⟩ ⟨hf, hx⟩
    simp only at hf hx
    subst hf
    have hb : b = [] := by simpa using hx.symm
    subst hb
    simp [shuffled, shuffledRead, if_neg hw, shuffleFill_done R _ (⟨i, [], false, g⟩ :
      ShuffledState m.σ R.G α) rfl]

theorem shuffled_aux (R : Rng) (hR : R.Lawful) (p : ShuffleParams) (hw : p.effWindow ≠ 1) (n : Nat) :
    ∀ (i : m.σ) (bp rest : List (α × Nat)) (g : R.G) (k : Nat),
      bp.length + rest.length ≤ n →
      m.Yields i (rest.map (·.1)) (.ok none) →
      bp.length ≤ p.effWindow →
      (p.window = 0 → bp.length + rest.length < 2 ^ 64 - 1) →
      (∀ q ∈ bp, q.2 < bp.length + k) →
      (rest.map (·.2) = List.range' (bp.length + k) rest.length) →
      ∃ os : List (α × Nat), (shuffled R p m).Yields ⟨i, bp.map (·.1), true, g⟩ (os.map (·.1)) (.ok none) ∧
        os.Perm (bp ++ rest) ∧ ∀ (j : Nat) (q : α × Nat), os[j]? = some q → q.2 < k + j + p.effWindow := by
  have hw0 : 0 < p.effWindow := by
    unfold ShuffleParams.effWindow
    split <;> omega
  induction n using Nat.strongRecOn with
  | ind n ih =>
  intro i bp rest g k hn hy hbw hz hb hr
  -- indices
  have hall : ∀ q ∈ bp ++ rest, q.2 < bp.length + rest.length + k := by
    intro q hq
    rcases List.mem_append.1 hq with hq | hq
    · have := hb q hq; omega
    · have : q.2 ∈ rest.map (·.2) := List.mem_map_of_mem hq
      rw [hr, List.mem_range'] at this
      obtain ⟨a, ha, e⟩ := this
      omega
  obtain ⟨f1, f2⟩ := shuffleFill_yields R (p.effWindow - (bp.map (·.1)).length)
    (st := ⟨i, bp.map (·.1), true, g⟩) (xs := rest.map (·.1)) rfl hy
  simp only [List.length_map] at f1 f2
  by_cases hlen : p.effWindow - bp.length ≤ rest.length
  · -- the buffer is full: pop a random instance
    obtain ⟨i', e', h'⟩ := f1 hlen
    generalize hroom : p.effWindow - bp.length = room at *
    have hwn : p.window ≠ 0 := by
      intro h0
      have := hz h0
      simp [ShuffleParams.effWindow, h0] at hroom hbw
      omega
    have hmax : p.maxDraw = p.effWindow - 1 := by
      simp [ShuffleParams.maxDraw, ShuffleParams.effWindow, hwn]
    let bp' := bp ++ rest.take room
    have hbl : bp'.length = p.effWindow := by simp [bp']; omega
    have hidx : (R.draw p.maxDraw g).1 < bp'.length := by
      have := hR.draw_le p.maxDraw g
      omega
    have hbne : bp' ≠ [] := by
      intro h0
      rw [h0] at hbl
      simp at hbl
      omega
    obtain ⟨z, hzl⟩ : ∃ z, bp'.getLast? = some z :=
      ⟨bp'.getLast hbne, List.getLast?_eq_some_getLast hbne⟩
    let idx := (R.draw p.maxDraw g).1
    let g' := (R.draw p.maxDraw g).2
    let nb := swapRemove bp' idx z
    have hperm : bp'.Perm (bp'[idx] :: nb) := swapRemove_perm bp' idx hidx z hzl
    have hnl : nb.length + 1 = bp'.length := by simpa using hperm.length_eq.symm
    have hread : (shuffled R p m).read (⟨i, bp.map (·.1), true, g⟩ : ShuffledState m.σ R.G α) =
        (.ok (some bp'[idx].1), (⟨i', nb.map (·.1), true, g'⟩ : ShuffledState m.σ R.G α)) := by
      have hmap : bp.map (·.1) ++ (rest.map (·.1)).take room = bp'.map (·.1) := by
        simp [bp', List.map_take]
      have hl : (bp'.map (·.1)).getLast? = some z.1 := by simp [hzl]
      have hg : (bp'.map (·.1))[idx]? = some bp'[idx].1 := by
        simp [idx, hidx]
      have hsr : (if idx ≠ (bp'.map (·.1)).length - 1 then (bp'.map (·.1)).set idx z.1 else bp'.map (·.1)).dropLast
          = nb.map (·.1) := swapRemove_map Prod.fst bp' idx z
      show shuffledRead R p m _ = _
      unfold shuffledRead
      rw [if_neg hw]
      simp only [List.length_map, hroom, e', hmap, hl, if_true]
      unfold popRandom
      simp only [hl]
      show (match (bp'.map (·.1))[idx]?, some z.1 with | some x, some l => _ | _, _ => _) = _
      rw [hg]
      simp only [g', ← hsr]
      rfl
    have hsplit : bp.length + rest.length = nb.length + (rest.drop room).length + 1 := by
      have : bp'.length = bp.length + room := by
        simp [bp', Nat.min_eq_left hlen]
      simp
      omega
    have hmem : ∀ q ∈ bp', q.2 < bp'.length + k := by
      intro q hq
      rcases List.mem_append.1 hq with hq | hq
      · have := hb q hq
        simp [bp']
        omega
      · obtain ⟨a, ha⟩ := List.mem_iff_getElem?.1 hq
        rw [List.getElem?_take] at ha
        split at ha
        · have h2 : (rest.map (·.2))[a]? = some q.2 := by simp [ha]
          rw [hr, List.getElem?_range'] at h2
          · simp at h2
            simp [bp']
            omega
          · have := (List.getElem?_eq_some_iff.1 ha).1
            exact this
        · simp at ha
    have hnext : ∃ os : List (α × Nat), (shuffled R p m).Yields ⟨i', nb.map (·.1), true, g'⟩ (os.map (·.1)) (.ok none) ∧
        os.Perm (nb ++ rest.drop room) ∧
        ∀ (j : Nat) (q : α × Nat), os[j]? = some q → q.2 < (k + 1) + j + p.effWindow := by
      refine ih (nb.length + (rest.drop room).length) (by omega) i' nb (rest.drop room) g' (k + 1)
        (Nat.le_refl _) ?_ ?_ ?_ ?_ ?_
      · rw [List.map_drop]; exact h'
      · omega
      · intro h0; exact absurd h0 hwn
      · intro q hq
        have := hmem q (hperm.mem_iff.2 (List.mem_cons_of_mem _ hq))
        omega
      · rw [List.map_drop, hr, List.drop_range', List.length_drop]
        congr 1
        omega
    obtain ⟨os, hos, hop, hob⟩ := hnext
    refine ⟨bp'[idx] :: os, ?_, ?_, ?_⟩
    · rw [List.map_cons]
      refine yields_cons.2 ?_
      rw [hread]
      exact ⟨rfl, hos⟩
    · have h1 : (bp ++ rest).Perm (bp' ++ rest.drop room) := by
        simp [bp']
      refine List.Perm.trans ?_ h1.symm
      refine List.Perm.trans (List.Perm.cons _ hop) ?_
      exact (hperm.append_right _).symm
    · intro j q hq
      cases j with
      | zero =>
        simp at hq
        subst hq
        have := hmem bp'[idx] (List.getElem_mem _)
        omega
      | succ j =>
        simp at hq
        have := hob j q hq
        omega
  · -- the end of the dataset is reached
    obtain ⟨i2, e2, h2⟩ := f2 (by omega)
    have hps := hR.perm g (bp.map (·.1) ++ rest.map (·.1))
    obtain ⟨nb2, hp2, hm2⟩ := perm_map_inv (·.1) hps (bp ++ rest) (by simp)
    refine ⟨nb2.reverse, ?_, (List.reverse_perm nb2).trans hp2, ?_⟩
    · have hd := shuffled_drain (m := m) R p hw i2 (nb2.map (·.1)) (R.shuffle g (bp.map (·.1) ++ rest.map (·.1))).2
      have hread2 : (shuffled R p m).read ⟨i, bp.map (·.1), true, g⟩ =
          (shuffled R p m).read ⟨i2, nb2.map (·.1), false, (R.shuffle g (bp.map (·.1) ++ rest.map (·.1))).2⟩ := by
        show shuffledRead R p m _ = shuffledRead R p m _
        unfold shuffledRead
        rw [if_neg hw]
        rw [shuffleFill_done R _ (⟨i2, nb2.map (·.1), false, (R.shuffle g (bp.map (·.1) ++ rest.map (·.1))).2⟩ :
          ShuffledState m.σ R.G α) rfl]
        simp only [List.length_map, e2, hm2, if_neg hw]
      rw [List.map_reverse]
      intro c
      rw [← hd c]
      cases c with
      | zero => rfl
      | succ c => simp only [outs, hread2]
    · intro j q hq
      have hq1 := List.mem_of_getElem? hq
      rw [List.mem_reverse, hp2.mem_iff] at hq1
      have := hall q hq1
      omega

theorem shuffled_yields (R : Rng) (hR : R.Lawful) (p : ShuffleParams) (g : R.G) {s : m.σ} {xs}
    (h : m.Yields s xs (.ok none)) (hz : p.window = 0 → xs.length < 2 ^ 64 - 1) :
    ∃ ys, (shuffled R p m).Yields ⟨s, [], true, g⟩ ys (.ok none) ∧
      Spec.WindowShuffle p.effWindow xs ys ∧ (p.window = 1 → ys = xs) := by
  by_cases hw : p.effWindow = 1
  · refine ⟨xs, ?_, ⟨List.range xs.length, List.Perm.refl _, ?_, ?_⟩, fun _ => rfl⟩
    · refine yields_of (m := shuffled R p m) (fun st ys => m.Yields st.inner ys (.ok none)) (.ok none)
        ?_ ?_ _ _ h
      · intro st x xs hy
        obtain ⟨s', e, h'⟩ := hy.read_cons
        simp [shuffled, shuffledRead, hw, e, h']
      · intro st hy
        obtain ⟨s', e, h'⟩ := hy.read_nil
        simp [shuffled, shuffledRead, hw, e, h']
    · apply List.ext_getElem?
      intro j
      by_cases hj : j < xs.length <;> simp [hj]
    · intro k i hk
      rw [List.getElem?_range] at hk
      · simp at hk; omega
      · apply Classical.byContradiction
        intro hlt
        rw [List.getElem?_eq_none (by simpa using hlt)] at hk
        simp at hk
  · obtain ⟨os, hy, hp, hb⟩ := shuffled_aux (m := m) R hR p hw xs.zipIdx.length s [] xs.zipIdx g 0
      (by simp) (by simpa using h) (by simp) (by simpa using hz) (by simp)
      (by simp)
    refine ⟨os.map (·.1), by simpa using hy, ⟨os.map (·.2), ?_, ?_, ?_⟩, ?_⟩
    · have := hp.map (·.2)
      simpa [List.range_eq_range'] using this
    · rw [List.map_map, List.map_map]
      apply List.map_congr_left
      rintro ⟨a, i⟩ hq
      have := hp.mem_iff.1 hq
      simp at this
      rw [List.mem_zipIdx_iff_getElem?] at this
      simpa using this.symm
    · intro k i hk
      rw [List.getElem?_map, Option.map_eq_some_iff] at hk
      obtain ⟨q, hq, rfl⟩ := hk
      have := hb k q hq
      omega
    · intro h1
      simp [ShuffleParams.effWindow, h1] at hw

end Machine
end Mlio
