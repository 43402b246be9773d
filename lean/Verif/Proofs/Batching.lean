import Verif.Proofs.Shuffling

namespace Mlio

theorem batchesFrom_nil {α : Type} (first b : Nat) (hb : 0 < b) (h : LastHandling) :
    Spec.batchesFrom first b h ([] : List α) = [] := by
  simp [Spec.batchesFrom, blocks_nil b hb]

theorem batchesFrom_cons {α : Type} (first b : Nat) (hb : 0 < b) (h : LastHandling) (xs : List α) (hx : xs ≠ []) :
    Spec.batchesFrom first b h xs =
      if (xs.take b).length = b ∨ ¬ Spec.dropsShort h then
        ⟨first, xs.take b, if Spec.padsShort h then b else (xs.take b).length⟩ ::
          Spec.batchesFrom (first + 1) b h (xs.drop b)
      else Spec.batchesFrom (first + 1) b h (xs.drop b) := by
  unfold Spec.batchesFrom
  rw [blocks_cons b hb xs hx, List.zipIdx_cons, List.filter_cons]
  simp only [decide_eq_true_eq]
  by_cases hc : (xs.take b).length = b ∨ ¬ Spec.dropsShort h = true
  · simp only [if_pos hc]; rfl
  · simp only [if_neg hc]

namespace Machine
variable {α : Type} {m : Machine α}

/-- A failure, as the batch loop reports it. -/
def failTail (t : Res (Option α)) (acc : List α) : Res (List α) :=
  match t with
  | .ok _ => .ok acc
  | .err e => .err e
  | .ub w => .ub w

theorem batchLoop_enough (room : Nat) {s : m.σ} {xs t} (acc : List α) (h : m.Yields s xs t)
    (hl : room ≤ xs.length) :
    ∃ s', batchLoop m room s acc = (.ok (acc ++ xs.take room), s') ∧ m.Yields s' (xs.drop room) t := by
  induction room generalizing s xs acc with
  | zero => exact ⟨s, by simp [batchLoop], by simpa using h⟩
  | succ n ih =>
    cases xs with
    | nil => simp at hl
    | cons x xs =>
      obtain ⟨s', e, h'⟩ := h.read_cons
      obtain ⟨s'', e', h''⟩ := ih (acc ++ [x]) h' (by simpa using hl)
      exact ⟨s'', by simp [batchLoop, e, e'], by simpa using h''⟩

theorem batchLoop_short (room : Nat) {s : m.σ} {xs t} (acc : List α) (ht : ∀ x, t ≠ .ok (some x))
    (h : m.Yields s xs t) (hl : xs.length < room) :
    ∃ s', batchLoop m room s acc = (failTail t (acc ++ xs), s') ∧ m.Yields s' [] t := by
  induction room generalizing s xs acc with
  | zero => simp at hl
  | succ n ih =>
    cases xs with
    | nil =>
      obtain ⟨s', e, h'⟩ := h.read_nil
      refine ⟨s', ?_, h'⟩
      match t, ht with
      | .ok (some x), ht => exact absurd rfl (ht x)
      | .ok none, _ => simp [batchLoop, e, failTail]
      | .err e', _ => simp [batchLoop, e, failTail]
      | .ub w, _ => simp [batchLoop, e, failTail]
    | cons x xs =>
      obtain ⟨s', e, h'⟩ := h.read_cons
      obtain ⟨s'', e', h''⟩ := ih (acc ++ [x]) h' (by simpa using hl)
      exact ⟨s'', by simp [batchLoop, e, e'], h''⟩

/-- Batches of a dataset that is read to its end. -/
theorem batched_yields (b : Nat) (hb : 0 < b) (h : LastHandling) (hp : h ≠ .padWarn) {s : m.σ} {xs}
    (hy : m.Yields s xs (.ok none)) :
    (batched b h m).Yields (s, 0) (Spec.batches b h xs) (.ok none) := by
  have pads : (Spec.padsShort h = true) = (h = .pad) := by
    cases h <;> simp [Spec.padsShort] at hp ⊢
  have drops : (h = .drop ∨ h = .dropWarn) = (Spec.dropsShort h = true) := by
    cases h <;> simp [Spec.dropsShort]
  refine yields_of (m := batched b h m)
    (fun st ys => ∃ xs, m.Yields st.1 xs (.ok none) ∧ ys = Spec.batchesFrom st.2 b h xs)
    (.ok none) ?_ ?_ _ _ ⟨xs, hy, rfl⟩
  · rintro ⟨i, k⟩ x ys ⟨xs, hy, hx⟩
    simp only at hx hy
    have hne : xs ≠ [] := by
      rintro rfl
      rw [batchesFrom_nil k b hb] at hx
      simp at hx
    rw [batchesFrom_cons k b hb h xs hne] at hx
    by_cases hl : b ≤ xs.length
    · obtain ⟨s', e, h'⟩ := batchLoop_enough b [] hy hl
      have hlen : (xs.take b).length = b := by simp [hl]
      have hempty : (xs.take b).isEmpty = false := by
        cases hxt : xs.take b with
        | nil => rw [hxt] at hlen; simp at hlen; omega
        | cons => rfl
      rw [if_pos (Or.inl hlen)] at hx
      simp only [List.cons.injEq] at hx
      simp only [List.nil_append] at e
      show (batchRead b h m (i, k)).1 = _ ∧ _
      refine ⟨?_, ?_⟩
      · simp only [batchRead, e, hempty, hlen]
        rw [if_neg (by simp), if_neg (by simp), hx.1]
        simp only [hlen, ite_self]
      · refine ⟨xs.drop b, ?_, ?_⟩
        · show m.Yields (batchRead b h m (i, k)).2.1 _ _
          simp only [batchRead, e, hempty, hlen]
          rw [if_neg (by simp), if_neg (by simp)]
          exact h'
        · show ys = Spec.batchesFrom (batchRead b h m (i, k)).2.2 _ _ _
          simp only [batchRead, e, hempty, hlen]
          rw [if_neg (by simp), if_neg (by simp)]
          exact hx.2
    · obtain ⟨s', e, h'⟩ := batchLoop_short b [] (by simp) hy (by omega)
      have htk : xs.take b = xs := List.take_of_length_le (by omega)
      have hempty : xs.isEmpty = false := by
        cases xs with
        | nil => exact absurd rfl hne
        | cons => rfl
      have hdr : xs.drop b = [] := List.drop_eq_nil_of_le (by omega)
      rw [htk, hdr, batchesFrom_nil _ b hb] at hx
      by_cases hd : Spec.dropsShort h = true
      · rw [if_neg (by simp [hd]; omega)] at hx
        simp at hx
      · rw [if_pos (Or.inr hd)] at hx
        simp only [List.cons.injEq] at hx
        simp only [List.nil_append, failTail] at e
        have hread : batchRead b h m (i, k) = (.ok (some x), (s', k + 1)) := by
          simp only [batchRead, e, hempty]
          rw [if_neg (by simp), if_neg (by rw [drops]; exact fun hc => hd hc.2), hx.1]
          simp only [pads]
        show (batchRead b h m (i, k)).1 = _ ∧ _
        refine ⟨by rw [hread], [], ?_, ?_⟩
        · show m.Yields (batchRead b h m (i, k)).2.1 _ _
          rw [hread]; exact h'
        · rw [hx.2, batchesFrom_nil _ b hb]
  · rintro ⟨i, k⟩ ⟨xs, hy, hx⟩
    simp only at hx hy
    by_cases hne : xs = []
    · subst hne
      obtain ⟨s', e, h'⟩ := batchLoop_short b [] (by simp) hy (by simpa using hb)
      have hread : batchRead b h m (i, k) = (.ok none, (s', k)) := by
        simp [batchRead, e, failTail]
      show (batchRead b h m (i, k)).1 = _ ∧ _
      refine ⟨by rw [hread], [], ?_, ?_⟩
      · show m.Yields (batchRead b h m (i, k)).2.1 _ _
        rw [hread]; exact h'
      · rw [batchesFrom_nil _ b hb]
    · rw [batchesFrom_cons k b hb h xs hne] at hx
      by_cases hc : (xs.take b).length = b ∨ ¬ Spec.dropsShort h = true
      · rw [if_pos hc] at hx
        simp at hx
      · have hl : xs.length < b := by
          simp at hc
          omega
        have hd : Spec.dropsShort h = true := by
          apply Classical.byContradiction
          exact fun hn => hc (Or.inr hn)
        obtain ⟨s', e, h'⟩ := batchLoop_short b [] (by simp) hy hl
        have hempty : xs.isEmpty = false := by
          cases xs with
          | nil => exact absurd rfl hne
          | cons => rfl
        simp only [List.nil_append, failTail] at e
        have hread : batchRead b h m (i, k) = (.ok none, (s', k)) := by
          simp only [batchRead, e, hempty]
          rw [if_neg (by simp), if_pos ⟨by omega, by rw [drops]; exact hd⟩]
        show (batchRead b h m (i, k)).1 = _ ∧ _
        refine ⟨by rw [hread], [], ?_, ?_⟩
        · show m.Yields (batchRead b h m (i, k)).2.1 _ _
          rw [hread]; exact h'
        · rw [batchesFrom_nil _ b hb]

/-- Batches of a dataset that fails for ever after `xs`: the full batches, then the failure. -/
theorem batched_yields_fail (b : Nat) (hb : 0 < b) (h : LastHandling) {s : m.σ} {xs} {e : Err}
    (hy : m.Yields s xs (.err e)) :
    (batched b h m).Yields (s, 0) (Spec.batches b .drop xs) (.err e) := by
  refine yields_of (m := batched b h m)
    (fun st ys => ∃ xs, m.Yields st.1 xs (.err e) ∧ ys = Spec.batchesFrom st.2 b .drop xs)
    (.err e) ?_ ?_ _ _ ⟨xs, hy, rfl⟩
  · rintro ⟨i, k⟩ x ys ⟨xs, hy, hx⟩
    simp only at hx hy
    have hne : xs ≠ [] := by
      rintro rfl
      rw [batchesFrom_nil k b hb] at hx
      simp at hx
    rw [batchesFrom_cons k b hb .drop xs hne] at hx
    by_cases hl : b ≤ xs.length
    · obtain ⟨s', e', h'⟩ := batchLoop_enough b [] hy hl
      have hlen : (xs.take b).length = b := by simp [hl]
      have hempty : (xs.take b).isEmpty = false := by
        cases hxt : xs.take b with
        | nil => rw [hxt] at hlen; simp at hlen; omega
        | cons => rfl
      rw [if_pos (Or.inl hlen)] at hx
      simp only [List.cons.injEq] at hx
      simp only [List.nil_append] at e'
      have hread : batchRead b h m (i, k) = (.ok (some x), (s', k + 1)) := by
        simp only [batchRead, e', hempty, hlen]
        rw [if_neg (by simp), if_neg (by simp), hx.1]
        simp only [hlen, ite_self]
      show (batchRead b h m (i, k)).1 = _ ∧ _
      refine ⟨by rw [hread], xs.drop b, ?_, ?_⟩
      · show m.Yields (batchRead b h m (i, k)).2.1 _ _
        rw [hread]; exact h'
      · show ys = Spec.batchesFrom (batchRead b h m (i, k)).2.2 _ _ _
        rw [hread]; exact hx.2
    · rw [if_neg (by simp [Spec.dropsShort]; omega), List.drop_eq_nil_of_le (by omega),
        batchesFrom_nil _ b hb] at hx
      simp at hx
  · rintro ⟨i, k⟩ ⟨xs, hy, hx⟩
    simp only at hx hy
    have hl : xs.length < b := by
      apply Classical.byContradiction
      intro hn
      have hne : xs ≠ [] := by
        rintro rfl
        simp at hn
        omega
      rw [batchesFrom_cons k b hb .drop xs hne, if_pos (Or.inl (by simp; omega))] at hx
      simp at hx
    obtain ⟨s', e', h'⟩ := batchLoop_short b [] (by simp) hy hl
    have hread : batchRead b h m (i, k) = (.err e, (s', k)) := by
      simp [batchRead, e', failTail]
    show (batchRead b h m (i, k)).1 = _ ∧ _
    refine ⟨by rw [hread], [], ?_, ?_⟩
    · show m.Yields (batchRead b h m (i, k)).2.1 _ _
      rw [hread]; exact h'
    · rw [batchesFrom_nil _ b hb]

end Machine
end Mlio
