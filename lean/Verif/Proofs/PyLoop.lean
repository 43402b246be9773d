import Verif.Spec.PyLoop

namespace Mlio
open Spec

variable {ε τ : Type}

theorem loop_run_append (lk : ε → Bytes → Option τ) (fs : List Bytes) (k : Nat) (s : LoopState ε) (a b : List LoopOp) :
    s.run lk fs k (a ++ b) =
      ((s.run lk fs k a).1 ++ ((s.run lk fs k a).2.run lk fs k b).1, ((s.run lk fs k a).2.run lk fs k b).2) := by
  induction a generalizing s with
  | nil => rfl
  | cons x a ih => simp [LoopState.run, ih (s.step lk fs k x).2]

theorem loop_run_length (lk : ε → Bytes → Option τ) (fs : List Bytes) (k : Nat) (s : LoopState ε) (a : List LoopOp) :
    (s.run lk fs k a).1.length = a.length := by
  induction a generalizing s with
  | nil => rfl
  | cons x a ih => simp [LoopState.run, ih (s.step lk fs k x).2]

/-- The history of a program. -/
def loopHist (lk : ε → Bytes → Option τ) (fs : List Bytes) (k : Nat) (s : LoopState ε) (p : List LoopOp) : List (LoopOp × LoopOut ε τ) :=
  p.zip (s.run lk fs k p).1

theorem loopHist_snoc (lk : ε → Bytes → Option τ) (fs : List Bytes) (k : Nat) (s : LoopState ε) (p : List LoopOp) (a : LoopOp) :
    loopHist lk fs k s (p ++ [a]) = loopHist lk fs k s p ++ [(a, ((s.run lk fs k p).2.step lk fs k a).1)] := by
  unfold loopHist
  rw [loop_run_append, List.zip_append (by rw [loop_run_length])]
  rfl

theorem loopHist_length (lk : ε → Bytes → Option τ) (fs : List Bytes) (k : Nat) (s : LoopState ε) (p : List LoopOp) :
    (loopHist lk fs k s p).length = p.length := by
  simp [loopHist, loop_run_length]

theorem resets_snoc (h : List (LoopOp × LoopOut ε τ)) (x) : resets (h ++ [x]) = resets h + if x.1 = .reset then 1 else 0 := by
  simp [resets, List.countP_append, List.countP_cons]

theorem usedUp_snoc (h : List (LoopOp × LoopOut ε τ)) (x) :
    usedUp (h ++ [x]) = if x.1 = .reset then 0 else usedUp h + if uses x = true then 1 else 0 := by
  unfold usedUp
  rw [List.reverse_append, List.reverse_singleton, List.singleton_append, List.takeWhile_cons]
  by_cases hx : x.1 = .reset
  · simp [hx]
  · simp [hx, List.countP_cons]

theorem mapM_some {α β : Type} {f : α → Option β} : ∀ {l : List α} {r : List β}, l.mapM f = some r → l.map f = r.map some
  | [], r, h => by simp at h; subst h; rfl
  | a :: l, r, h => by
    rw [List.mapM_cons] at h
    cases hf : f a with
    | none => simp [hf] at h
    | some b =>
      cases hl : l.mapM f with
      | none => simp [hf, hl] at h
      | some bs =>
        simp [hf, hl] at h
        subst h
        simp [hf, mapM_some hl]

theorem mapM_none {α β : Type} {f : α → Option β} : ∀ {l : List α}, l.mapM f = none → ∃ a ∈ l, f a = none
  | [], h => by simp at h
  | a :: l, h => by
    rw [List.mapM_cons] at h
    cases hf : f a with
    | none => exact ⟨a, by simp, hf⟩
    | some b =>
      cases hl : l.mapM f with
      | none =>
        obtain ⟨x, hx, e⟩ := mapM_none hl
        exact ⟨x, by simp [hx], e⟩
      | some bs => simp [hf, hl] at h

theorem mapM_isSome {α β : Type} {f : α → Option β} : ∀ {l : List α}, (∀ a ∈ l, f a ≠ none) → ∃ r, l.mapM f = some r := by
  intro l h
  cases hm : l.mapM f with
  | some r => exact ⟨r, rfl⟩
  | none =>
    obtain ⟨a, ha, e⟩ := mapM_none hm
    exact absurd e (h a ha)

theorem eraseDups_nodup : ∀ (n : Nat) (l : List Bytes), l.length = n → l.eraseDups.Nodup := by
  intro n
  induction n using Nat.strongRecOn with
  | _ n ih =>
    intro l hl
    cases l with
    | nil => simp
    | cons a l =>
      rw [List.eraseDups_cons, List.nodup_cons]
      refine ⟨?_, ih _ (by have := List.length_filter_le (fun b => !b == a) l; simp at hl; omega) _ rfl⟩
      intro hm
      rw [List.mem_eraseDups] at hm
      simp at hm

theorem featureDict_has (lk : ε → Bytes → Option τ) (fs : List Bytes) (e : ε) {d} (h : featureDict lk fs e = some d) : HasFeatures lk fs e d := by
  have hm := mapM_some h
  have hv : ∀ f t, (f, t) ∈ d → lk e f = some t := by
    intro f t hft
    have : some (f, t) ∈ d.map some := List.mem_map_of_mem hft
    rw [← hm] at this
    obtain ⟨g, hg, e1⟩ := List.mem_map.1 this
    cases hl : lk e g with
    | none => simp [hl] at e1
    | some u =>
      simp [hl] at e1
      obtain ⟨rfl, rfl⟩ := e1
      exact hl
  have hk : d.map Prod.fst = fs.eraseDups := by
    have h2 : ∀ (l : List Bytes) (d : List (Bytes × τ)), l.map (fun f => (lk e f).map (f, ·)) = d.map some → d.map Prod.fst = l := by
      intro l
      induction l with
      | nil => intro d h; cases d <;> simp at h ⊢
      | cons f l ih =>
        intro d h
        cases d with
        | nil => simp at h
        | cons x d =>
          simp only [List.map_cons, List.cons.injEq] at h
          rw [List.map_cons, ih d h.2]
          cases hl : lk e f with
          | none => simp [hl] at h
          | some u =>
            simp only [hl, Option.map_some, Option.some.injEq] at h
            rw [← h.1]
    exact h2 _ _ hm
  refine ⟨?_, ?_, hv⟩
  · intro f
    rw [hk, List.mem_eraseDups]
  · rw [hk]; exact eraseDups_nodup _ _ rfl

/-- What a program's state is, by its history. -/
structure LoopInv (content : Nat → List ε × Option Err) (lk : ε → Bytes → Option τ) (fs : List Bytes) (k : Nat) (p : List LoopOp) (s : LoopState ε) : Prop where
  same : s.reader.content = content
  epoch : s.reader.epoch = resets (loopHist lk fs k ⟨⟨content, 0, 0⟩, []⟩ p)
  pos : s.reader.pos = usedUp (loopHist lk fs k ⟨⟨content, 0, 0⟩, []⟩ p)
  gens : s.gens.length = p.countP (· == .iterate)
  le : s.reader.pos ≤ (content s.reader.epoch).1.length

theorem peek_cases (r : LoopReader ε) :
    (∃ e, r.peekExample = .ok (some e) ∧ (r.content r.epoch).1[r.pos]? = some e) ∨
    (r.peekExample = .ok none ∧ (r.content r.epoch).1[r.pos]? = none ∧ (r.content r.epoch).2 = none) ∨
    (∃ x, r.peekExample = .error x ∧ (r.content r.epoch).1[r.pos]? = none ∧ (r.content r.epoch).2 = some x) := by
  unfold LoopReader.peekExample
  cases h : (r.content r.epoch).1[r.pos]? with
  | some e => exact .inl ⟨e, rfl, rfl⟩
  | none =>
    cases h2 : (r.content r.epoch).2 with
    | none => exact .inr (.inl ⟨rfl, rfl, rfl⟩)
    | some x => exact .inr (.inr ⟨x, rfl, rfl, rfl⟩)

/-- What a step does to the reader and what it ends with. -/
theorem loop_step (lk : ε → Bytes → Option τ) (fs : List Bytes) (k : Nat) (s : LoopState ε) (a : LoopOp) (o : LoopOut ε τ) (s1 : LoopState ε)
    (h : s.step lk fs k a = (o, s1)) :
    s1.reader.content = s.reader.content ∧
    s1.reader.epoch = s.reader.epoch + (if a = .reset then 1 else 0) ∧
    s1.reader.pos = (if a = .reset then 0 else s.reader.pos + if uses (a, o) = true then 1 else 0) ∧
    s1.gens.length = s.gens.length + (if a = .iterate then 1 else 0) ∧
    (uses (a, o) = true → (s.reader.content s.reader.epoch).1[s.reader.pos]? ≠ none) ∧
    (∀ e, o = .example e → (s.reader.content s.reader.epoch).1[s.reader.pos]? = some e) ∧
    (∀ d, o = .element d → ∃ e, (s.reader.content s.reader.epoch).1[s.reader.pos]? = some e ∧ HasFeatures lk fs e d) ∧
    (o = .missing → ∃ e, (s.reader.content s.reader.epoch).1[s.reader.pos]? = some e ∧ ∃ f ∈ fs, lk e f = none) ∧
    (o = .noExample ∨ (a = .next ∧ o = .stop) → (s.reader.content s.reader.epoch).1[s.reader.pos]? = none ∧ (s.reader.content s.reader.epoch).2 = none) ∧
    (∀ x, o = .raised x → (s.reader.content s.reader.epoch).1[s.reader.pos]? = none ∧ (s.reader.content s.reader.epoch).2 = some x) := by
  cases a with
  | reset => simp only [LoopState.step] at h; cases h; simp [LoopReader.reset, uses]
  | iterate => simp only [LoopState.step] at h; cases h; simp [uses]
  | read =>
    simp only [LoopState.step, LoopReader.readExample] at h
    rcases peek_cases s.reader with ⟨e, hp, hc⟩ | ⟨hp, hc, he⟩ | ⟨x, hp, hc, he⟩ <;> rw [hp] at h <;> simp only at h <;> cases h <;> simp [uses, hc]
    all_goals assumption
  | peek =>
    simp only [LoopState.step] at h
    rcases peek_cases s.reader with ⟨e, hp, hc⟩ | ⟨hp, hc, he⟩ | ⟨x, hp, hc, he⟩ <;> rw [hp] at h <;> simp only at h <;> cases h <;> simp [uses, hc]
    all_goals assumption
  | next =>
    simp only [LoopState.step, LoopReader.next, LoopReader.readExample] at h
    rcases peek_cases s.reader with ⟨e, hp, hc⟩ | ⟨hp, hc, he⟩ | ⟨x, hp, hc, he⟩ <;> rw [hp] at h <;> simp only at h <;> cases h <;> simp [uses, hc]
    all_goals assumption
  | element i =>
    simp only [LoopState.step, LoopState.genNext] at h
    split at h
    · simp only [LoopReader.next, LoopReader.readExample] at h
      rcases peek_cases s.reader with ⟨e, hp, hc⟩ | ⟨hp, hc, he⟩ | ⟨x, hp, hc, he⟩
      · rw [hp] at h
        simp only at h
        split at h
        · rename_i d hd
          split at h
          · cases h
            have := featureDict_has lk fs e hd
            simp [uses, hc]
            exact this
          · cases h
            simp [uses, hc]
        · rename_i hd
          cases h
          obtain ⟨f, hf, hn⟩ := mapM_none hd
          rw [List.mem_eraseDups] at hf
          simp at hn
          simp [uses, hc]
          exact ⟨f, hf, hn⟩
      · rw [hp] at h
        simp only at h
        cases h
        simp [uses]
      · rw [hp] at h
        simp only at h
        cases h
        simp [uses, hc]
        exact he
    · cases h
      simp [uses]

theorem loopInv_all (content : Nat → List ε × Option Err) (lk : ε → Bytes → Option τ) (fs : List Bytes) (k : Nat) (p : List LoopOp) :
    LoopInv content lk fs k p ((⟨⟨content, 0, 0⟩, []⟩ : LoopState ε).run lk fs k p).2 := by
  suffices ∀ n p, p.length = n → LoopInv content lk fs k p ((⟨⟨content, 0, 0⟩, []⟩ : LoopState ε).run lk fs k p).2 from this _ _ rfl
  intro n
  induction n with
  | zero =>
    intro p hp
    rw [List.length_eq_zero_iff.1 hp]
    exact ⟨rfl, rfl, rfl, rfl, Nat.zero_le _⟩
  | succ n ih =>
    intro p hp
    obtain ⟨q, a, rfl⟩ : ∃ q a, p = q ++ [a] := ⟨p.dropLast, p.getLast (by intro h; simp [h] at hp), (List.dropLast_concat_getLast _).symm⟩
    have hq := ih q (by simp at hp; omega)
    rw [loop_run_append]
    generalize hs : ((⟨⟨content, 0, 0⟩, []⟩ : LoopState ε).run lk fs k q).2 = s at hq ⊢
    have hst := loop_step lk fs k s a (s.step lk fs k a).1 (s.step lk fs k a).2 rfl
    have hh := loopHist_snoc lk fs k ⟨⟨content, 0, 0⟩, []⟩ q a
    rw [hs] at hh
    obtain ⟨h1, h2, h3, h4, h5, _⟩ := hst
    simp only [LoopState.run]
    have hpos : (s.step lk fs k a).2.reader.pos = usedUp (loopHist lk fs k ⟨⟨content, 0, 0⟩, []⟩ (q ++ [a])) := by
      rw [hh, usedUp_snoc, h3, hq.pos]
    have hep : (s.step lk fs k a).2.reader.epoch = resets (loopHist lk fs k ⟨⟨content, 0, 0⟩, []⟩ (q ++ [a])) := by
      rw [hh, resets_snoc, h2, hq.epoch]
    refine ⟨h1.trans hq.same, hep, hpos, ?_, ?_⟩
    · rw [h4, hq.gens, List.countP_append]
      simp [List.countP_cons]
    · rw [h3, h2]
      by_cases ha : a = .reset
      · simp [ha]
      · rw [if_neg ha, if_neg ha]
        by_cases hu : uses (a, (s.step lk fs k a).1) = true
        · rw [if_pos hu]
          have := h5 hu
          rw [hq.same] at this
          rw [ne_eq, List.getElem?_eq_none_iff] at this
          simp only [Nat.add_zero]
          omega
        · rw [if_neg hu]; exact hq.le

/-- A finished iteration stays finished. -/
theorem gen_stays (lk : ε → Bytes → Option τ) (fs : List Bytes) (k : Nat) (i : Nat) (s : LoopState ε) (a : LoopOp)
    (h : s.gens[i]? = some .finished) : (s.step lk fs k a).2.gens[i]? = some .finished := by
  have hset : ∀ j, (s.gens.set j .finished)[i]? = some LoopGen.finished := by
    intro j
    rw [List.getElem?_set]
    split
    · rw [if_pos (by rename_i hij; subst hij; exact (List.getElem?_eq_some_iff.1 h).1)]
    · exact h
  cases a with
  | read => simp only [LoopState.step]; split <;> exact h
  | peek => simp only [LoopState.step]; split <;> exact h
  | reset => exact h
  | next => exact h
  | iterate =>
    simp only [LoopState.step]
    rw [List.getElem?_append_left (List.getElem?_eq_some_iff.1 h).1]
    exact h
  | element j =>
    simp only [LoopState.step, LoopState.genNext]
    split
    · split
      · split
        · split <;> exact h
        · exact hset j
      · exact hset j
    · exact h

end Mlio
