import Verif.Proofs.PyLoop
import Verif.Spec.Sessions

/-!
# C110: loops over readers in Python

A program reads from a reader by `for example in reader`, by `next` on any of its iterators, by `read_example` and `peek_example`, and by iterating over the TensorFlow
dataset that `make_tf_dataset` made of it, in any order, and calls `reset`.
-/

namespace Mlio
open Spec

variable {ε τ : Type}

/-- A program at its start: the reader has not been used and there is no iteration over the dataset. -/
def LoopState.start (content : Nat → List ε × Option Err) : LoopState ε := ⟨⟨content, 0, 0⟩, []⟩

/-- **C110.**  In every program, each call sees the next example that was not used up since the last reset, whichever way it and the others are made; the end and errors
are seen when all were used up.  Iterators have no position of their own. -/
theorem C110_session (content : Nat → List ε × Option Err) (lookup : ε → Bytes → Option τ) (features : List Bytes) (dtypes : Nat) (p : List LoopOp) :
    LoopSession content lookup features (p.zip ((LoopState.start content).run lookup features dtypes p).1) := by
  have main : ∀ i c o, (loopHist lookup features dtypes (LoopState.start content) p)[i]? = some (c, o) →
      ∃ s : LoopState ε, LoopInv content lookup features dtypes (p.take i) s ∧ (s.step lookup features dtypes c).1 = o ∧
        (loopHist lookup features dtypes (LoopState.start content) p).take i = loopHist lookup features dtypes (LoopState.start content) (p.take i) := by
    intro i c o h
    have hi : i < p.length := by
      have := (List.getElem?_eq_some_iff.1 h).1
      rwa [loopHist_length] at this
    have hp : p = p.take i ++ [p[i]] ++ p.drop (i + 1) := by simp
    have hsplit : loopHist lookup features dtypes (LoopState.start content) p =
        loopHist lookup features dtypes (LoopState.start content) (p.take i) ++
          ([(p[i], (((LoopState.start content).run lookup features dtypes (p.take i)).2.step lookup features dtypes p[i]).1)] ++
          (p.drop (i + 1)).zip (((LoopState.start content).run lookup features dtypes (p.take i ++ [p[i]])).2.run lookup features dtypes (p.drop (i + 1))).1) := by
      rw [← List.append_assoc, ← loopHist_snoc]
      conv => lhs; rw [hp]
      unfold loopHist
      rw [loop_run_append, List.zip_append (by rw [loop_run_length])]
    have hl : (loopHist lookup features dtypes (LoopState.start content) (p.take i)).length = i := by
      rw [loopHist_length, List.length_take]; omega
    refine ⟨((LoopState.start content).run lookup features dtypes (p.take i)).2, loopInv_all content lookup features dtypes _, ?_, ?_⟩
    · rw [hsplit, List.getElem?_append_right (by omega), hl] at h
      simp at h
      rw [← h.1]
      exact h.2
    · rw [hsplit, List.take_append_of_le_length (by omega), List.take_of_length_le (by omega)]
  constructor
  · intro i c e h
    obtain ⟨s, hs, ho, ht⟩ := main i c _ h
    have := (loop_step lookup features dtypes s c (s.step lookup features dtypes c).1 (s.step lookup features dtypes c).2 rfl).2.2.2.2.2.1 e ho
    rw [hs.same, hs.epoch, hs.pos] at this
    change (content (resets ((loopHist lookup features dtypes (LoopState.start content) p).take i))).1[usedUp ((loopHist lookup features dtypes (LoopState.start content) p).take i)]? = _
    rw [ht]; exact this
  · intro i c d h
    obtain ⟨s, hs, ho, ht⟩ := main i c _ h
    have := (loop_step lookup features dtypes s c (s.step lookup features dtypes c).1 (s.step lookup features dtypes c).2 rfl).2.2.2.2.2.2.1 d ho
    rw [hs.same, hs.epoch, hs.pos] at this
    change ∃ e, (content (resets ((loopHist lookup features dtypes (LoopState.start content) p).take i))).1[usedUp ((loopHist lookup features dtypes (LoopState.start content) p).take i)]? = _ ∧ _
    rw [ht]; exact this
  · intro i c h
    obtain ⟨s, hs, ho, ht⟩ := main i c _ h
    have := (loop_step lookup features dtypes s c (s.step lookup features dtypes c).1 (s.step lookup features dtypes c).2 rfl).2.2.2.2.2.2.2.1 ho
    rw [hs.same, hs.epoch, hs.pos] at this
    change ∃ e, (content (resets ((loopHist lookup features dtypes (LoopState.start content) p).take i))).1[usedUp ((loopHist lookup features dtypes (LoopState.start content) p).take i)]? = _ ∧ _
    rw [ht]; exact this
  · intro i c o h hc
    obtain ⟨s, hs, ho, ht⟩ := main i c _ h
    have := (loop_step lookup features dtypes s c (s.step lookup features dtypes c).1 (s.step lookup features dtypes c).2 rfl).2.2.2.2.2.2.2.2.1 (by rw [ho]; exact hc)
    have hle := hs.le
    rw [List.getElem?_eq_none_iff] at this
    rw [hs.same, hs.epoch, hs.pos] at this
    rw [hs.epoch, hs.pos] at hle
    change usedUp ((loopHist lookup features dtypes (LoopState.start content) p).take i) =
      (content (resets ((loopHist lookup features dtypes (LoopState.start content) p).take i))).1.length ∧
      (content (resets ((loopHist lookup features dtypes (LoopState.start content) p).take i))).2 = none
    rw [ht]; exact ⟨Nat.le_antisymm hle this.1, this.2⟩
  · intro i c x h
    obtain ⟨s, hs, ho, ht⟩ := main i c _ h
    have := (loop_step lookup features dtypes s c (s.step lookup features dtypes c).1 (s.step lookup features dtypes c).2 rfl).2.2.2.2.2.2.2.2.2 x ho
    have hle := hs.le
    rw [List.getElem?_eq_none_iff] at this
    rw [hs.same, hs.epoch, hs.pos] at this
    rw [hs.epoch, hs.pos] at hle
    change usedUp ((loopHist lookup features dtypes (LoopState.start content) p).take i) =
      (content (resets ((loopHist lookup features dtypes (LoopState.start content) p).take i))).1.length ∧
      (content (resets ((loopHist lookup features dtypes (LoopState.start content) p).take i))).2 = some x
    rw [ht]; exact ⟨Nat.le_antisymm hle this.1, this.2⟩

theorem takeWhile_all {α : Type} {q : α → Bool} : ∀ (l : List α), (∀ x ∈ l, q x = true) → l.takeWhile q = l
  | [], _ => rfl
  | a :: l, h => by rw [List.takeWhile_cons, if_pos (h a (by simp)), takeWhile_all l (fun x hx => h x (by simp [hx]))]

theorem take_replicate_more {α : Type} (l : List α) (x : α) (m : Nat) : (l ++ List.replicate (m + 1) x).take m = (l ++ List.replicate m x).take m := by
  rw [List.replicate_succ', ← List.append_assoc, List.take_append_of_le_length (l₁ := l ++ List.replicate m x) (by simp)]

theorem next_run (lookup : ε → Bytes → Option τ) (features : List Bytes) (dtypes : Nat) (m : Nat) : ∀ (s : LoopState ε),
    (s.run lookup features dtypes (List.replicate m .next)).1 =
      loopSees ((s.reader.content s.reader.epoch).1.drop s.reader.pos) (s.reader.content s.reader.epoch).2 m := by
  induction m with
  | zero => intro s; simp [LoopState.run, loopSees]
  | succ m ih =>
    intro s
    rw [List.replicate_succ]
    simp only [LoopState.run, LoopState.step, LoopReader.next, LoopReader.readExample]
    rcases peek_cases s.reader with ⟨e, hp, hc⟩ | ⟨hp, hc, he⟩ | ⟨x, hp, hc, he⟩
    · rw [hp]
      simp only
      rw [ih]
      obtain ⟨hlt, he⟩ := List.getElem?_eq_some_iff.1 hc
      simp only [loopSees]
      rw [List.drop_eq_getElem_cons hlt, he, List.map_cons, List.cons_append, List.take_succ_cons]
      congr 1
      rw [take_replicate_more]
    · rw [hp]
      simp only
      rw [ih]
      rw [List.getElem?_eq_none_iff] at hc
      simp only [loopSees, List.drop_eq_nil_of_le hc, he]
      simp [List.replicate_succ]
    · rw [hp]
      simp only
      rw [ih]
      rw [List.getElem?_eq_none_iff] at hc
      simp only [loopSees, List.drop_eq_nil_of_le hc, he]
      simp [List.replicate_succ]

/-- **C110** for loops: after any program, a `for` loop over the reader sees the examples that were not used up since the last reset, and then the end, or the error. -/
theorem C110_for (content : Nat → List ε × Option Err) (lookup : ε → Bytes → Option τ) (features : List Bytes) (dtypes : Nat) (p : List LoopOp) (m : Nat) :
    let hist := p.zip ((LoopState.start content).run lookup features dtypes p).1
    ((LoopState.start content).run lookup features dtypes (p ++ List.replicate m .next)).1.drop p.length =
      loopSees ((content (resets hist)).1.drop (usedUp hist)) (content (resets hist)).2 m := by
  intro hist
  rw [loop_run_append, List.drop_left' (loop_run_length ..), next_run]
  have hi := loopInv_all content lookup features dtypes p
  change LoopInv content lookup features dtypes p ((LoopState.start content).run lookup features dtypes p).2 at hi
  rw [hi.same, hi.epoch, hi.pos]
  rfl

/-- **C110** for loops after a reset: the whole dataset again. -/
theorem C110_reset (content : Nat → List ε × Option Err) (lookup : ε → Bytes → Option τ) (features : List Bytes) (dtypes : Nat) (p : List LoopOp) (m : Nat) :
    ((LoopState.start content).run lookup features dtypes (p ++ .reset :: List.replicate m .next)).1.drop (p.length + 1) =
      loopSees (content (p.countP (· == .reset) + 1)).1 (content (p.countP (· == .reset) + 1)).2 m := by
  have h := C110_for content lookup features dtypes (p ++ [.reset]) m
  simp only at h
  rw [show p ++ LoopOp.reset :: List.replicate m .next = (p ++ [.reset]) ++ List.replicate m .next by simp]
  rw [show p.length + 1 = (p ++ [LoopOp.reset]).length by simp, h]
  have hh := loopHist_snoc lookup features dtypes (LoopState.start content) p .reset
  unfold loopHist at hh
  have hz : resets (p.zip ((LoopState.start content).run lookup features dtypes p).1) = p.countP (· == .reset) := by
    unfold resets
    rw [show (fun x : LoopOp × LoopOut ε τ => x.1 == LoopOp.reset) = (fun a => a == LoopOp.reset) ∘ Prod.fst from rfl, ← List.countP_map,
      List.map_fst_zip (by rw [loop_run_length]; exact Nat.le_refl _)]
  rw [hh, usedUp_snoc, resets_snoc, hz]
  simp

/-- All examples have all features, with a data type for each. -/
def Featured (lookup : ε → Bytes → Option τ) (features : List Bytes) (dtypes : Nat) (es : List ε) : Prop :=
  features.length ≤ dtypes ∧ ∀ e ∈ es, ∀ f ∈ features, lookup e f ≠ none

theorem element_run (lookup : ε → Bytes → Option τ) (features : List Bytes) (dtypes : Nat) (i : Nat) (m : Nat) : ∀ (s : LoopState ε),
    s.gens[i]? = some .running → Featured lookup features dtypes ((s.reader.content s.reader.epoch).1.drop s.reader.pos) →
    ∃ ds : List (List (Bytes × τ)), ((s.reader.content s.reader.epoch).1.drop s.reader.pos).map (featureDict lookup features) = ds.map some ∧
    (s.run lookup features dtypes (List.replicate m (.element i))).1 = iterationSees ds (s.reader.content s.reader.epoch).2 m := by
  have hdict : ∀ l, Featured lookup features dtypes l → ∃ ds : List (List (Bytes × τ)), l.map (featureDict lookup features) = ds.map some := by
    intro l hl
    obtain ⟨ds, hds⟩ := mapM_isSome (f := featureDict lookup features) (l := l) (by
      intro e he hn
      obtain ⟨f, hf, hx⟩ := mapM_none hn
      rw [List.mem_eraseDups] at hf
      simp at hx
      exact hl.2 e he f hf hx)
    exact ⟨ds, mapM_some hds⟩
  have hfin : ∀ m (s : LoopState ε), s.gens[i]? = some .finished →
      (s.run lookup features dtypes (List.replicate m (.element i))).1 = List.replicate m (LoopOut.stop : LoopOut ε τ) := by
    intro m
    induction m with
    | zero => intro s _; rfl
    | succ m ih =>
      intro s hs
      rw [List.replicate_succ]
      simp only [LoopState.run, LoopState.step, LoopState.genNext, hs]
      rw [ih s hs]
      rfl
  induction m with
  | zero =>
    intro s _ hf
    obtain ⟨ds, hds⟩ := hdict _ hf
    exact ⟨ds, hds, by simp [LoopState.run, iterationSees]⟩
  | succ m ih =>
    intro s hg hf
    rw [List.replicate_succ]
    have hset : (s.gens.set i LoopGen.finished)[i]? = some .finished := by
      rw [List.getElem?_set]
      simp [(List.getElem?_eq_some_iff.1 hg).1]
    simp only [LoopState.run, LoopState.step, LoopState.genNext, hg, LoopReader.next, LoopReader.readExample]
    rcases peek_cases s.reader with ⟨e, hp, hc⟩ | ⟨hp, hc, he⟩ | ⟨x, hp, hc, he⟩
    · rw [hp]
      simp only
      obtain ⟨hlt, he⟩ := List.getElem?_eq_some_iff.1 hc
      rw [List.drop_eq_getElem_cons hlt, he] at hf ⊢
      have hf2 : Featured lookup features dtypes ((s.reader.content s.reader.epoch).1.drop (s.reader.pos + 1)) :=
        ⟨hf.1, fun e he => hf.2 e (by simp [he])⟩
      obtain ⟨ds, hds, hr⟩ := ih { s with reader := { s.reader with pos := s.reader.pos + 1 } } hg hf2
      cases hd : featureDict lookup features e with
      | none =>
        obtain ⟨f, hfm, hx⟩ := mapM_none hd
        rw [List.mem_eraseDups] at hfm
        simp at hx
        exact absurd hx (hf.2 e (by simp) f hfm)
      | some d =>
        have hok : (features.eraseDups.all fun f => (outputKeys features dtypes).contains f) = true := by
          rw [List.all_eq_true]
          intro f hfm
          rw [outputKeys, List.take_of_length_le hf.1]
          simpa using hfm
        refine ⟨d :: ds, by simp only [List.map_cons, hd]; rw [← hds], ?_⟩
        simp only
        rw [if_pos hok]
        simp only
        rw [hr]
        simp only [iterationSees, List.map_cons, List.cons_append, List.take_succ_cons]
        congr 1
        rw [take_replicate_more]
    · rw [hp]
      simp only
      rw [hfin m _ hset]
      rw [List.getElem?_eq_none_iff] at hc
      refine ⟨[], by simp [List.drop_eq_nil_of_le hc], ?_⟩
      simp [iterationSees, he, List.replicate_succ]
    · rw [hp]
      simp only
      rw [hfin m _ hset]
      rw [List.getElem?_eq_none_iff] at hc
      refine ⟨[], by simp [List.drop_eq_nil_of_le hc], ?_⟩
      simp [iterationSees, he]

/-- **C110** for datasets, exactly: after any program, a new iteration over the dataset sees the features of the examples of the reader that were not used up since the last reset. -/
theorem C110_tf_exact (content : Nat → List ε × Option Err) (lookup : ε → Bytes → Option τ) (features : List Bytes) (dtypes : Nat) (p : List LoopOp) (m : Nat) :
    let hist := p.zip ((LoopState.start content).run lookup features dtypes p).1
    Featured lookup features dtypes ((content (resets hist)).1.drop (usedUp hist)) →
    ∃ ds, ds.length = ((content (resets hist)).1.drop (usedUp hist)).length ∧
      (∀ (i : Nat) e d, ((content (resets hist)).1.drop (usedUp hist))[i]? = some e → ds[i]? = some d → HasFeatures lookup features e d) ∧
      ((LoopState.start content).run lookup features dtypes (p ++ .iterate :: List.replicate m (.element (p.countP (· == .iterate))))).1.drop (p.length + 1) =
        iterationSees ds (content (resets hist)).2 m := by
  intro hist hf
  have hi := loopInv_all content lookup features dtypes p
  change LoopInv content lookup features dtypes p ((LoopState.start content).run lookup features dtypes p).2 at hi
  generalize hs : ((LoopState.start content).run lookup features dtypes p).2 = s at hi
  have hz1 : s.reader.epoch = resets hist := hi.epoch
  have hz2 : s.reader.pos = usedUp hist := hi.pos
  have hg : (s.gens ++ [LoopGen.running])[p.countP (· == .iterate)]? = some .running := by
    rw [← hi.gens]; simp
  obtain ⟨ds, hds, hr⟩ := element_run lookup features dtypes (p.countP (· == .iterate)) m { s with gens := s.gens ++ [.running] } hg
    (by simp only; rw [hi.same, hz1, hz2]; exact hf)
  simp only [hi.same, hz1, hz2] at hds hr
  refine ⟨ds, by have := congrArg List.length hds; simpa using this.symm, ?_, ?_⟩
  · intro i e d he hd
    have h1 : (((content (resets hist)).1.drop (usedUp hist)).map (featureDict lookup features))[i]? = some (featureDict lookup features e) := by
      rw [List.getElem?_map, he]; rfl
    rw [hds, List.getElem?_map, hd] at h1
    simp at h1
    exact featureDict_has lookup features e h1.symm
  · rw [show p ++ LoopOp.iterate :: List.replicate m (.element (p.countP (· == .iterate))) =
      p ++ ([.iterate] ++ List.replicate m (.element (p.countP (· == .iterate)))) by simp]
    rw [loop_run_append, loop_run_append, hs]
    rw [show p.length + 1 = ((LoopState.start content).run lookup features dtypes p).1.length + 1 by rw [loop_run_length], List.drop_append]
    rw [List.drop_of_length_le (by omega)]
    simp only [List.nil_append, Nat.add_sub_cancel_left]
    exact hr

/-- **C110** for datasets (partial: iterations in front of which the program resets the reader): such an iteration sees the features of all examples of the epoch. -/
theorem C110_tf_partial (content : Nat → List ε × Option Err) (lookup : ε → Bytes → Option τ) (features : List Bytes) (dtypes : Nat) (p : List LoopOp) (m : Nat)
    (hf : Featured lookup features dtypes (content (p.countP (· == .reset) + 1)).1) :
    ∃ ds, ds.length = (content (p.countP (· == .reset) + 1)).1.length ∧
      (∀ (i : Nat) e d, (content (p.countP (· == .reset) + 1)).1[i]? = some e → ds[i]? = some d → HasFeatures lookup features e d) ∧
      ((LoopState.start content).run lookup features dtypes (p ++ .reset :: .iterate :: List.replicate m (.element (p.countP (· == .iterate))))).1.drop (p.length + 2) =
        iterationSees ds (content (p.countP (· == .reset) + 1)).2 m := by
  have hh := loopHist_snoc lookup features dtypes (LoopState.start content) p .reset
  unfold loopHist at hh
  have hz : resets (p.zip ((LoopState.start content).run lookup features dtypes p).1) = p.countP (· == .reset) := by
    unfold resets
    rw [show (fun x : LoopOp × LoopOut ε τ => x.1 == LoopOp.reset) = (fun a => a == LoopOp.reset) ∘ Prod.fst from rfl, ← List.countP_map,
      List.map_fst_zip (by rw [loop_run_length]; exact Nat.le_refl _)]
  have h := C110_tf_exact content lookup features dtypes (p ++ [.reset]) m
  simp only at h
  rw [hh, usedUp_snoc, resets_snoc, hz] at h
  simp only [if_true, List.drop_zero] at h
  have hc : (p ++ [LoopOp.reset]).countP (· == .iterate) = p.countP (· == .iterate) := by
    rw [List.countP_append]; simp
  rw [hc] at h
  obtain ⟨ds, h1, h2, h3⟩ := h hf
  refine ⟨ds, h1, h2, ?_⟩
  rw [← h3]
  simp

/-- **C110** for iterations: one that has ended, or has ended with an exception, stays at its end, whatever happens to the reader (unlike iterators of the reader itself, which go on after a reset). -/
theorem C110_finished (content : Nat → List ε × Option Err) (lookup : ε → Bytes → Option τ) (features : List Bytes) (dtypes : Nat) (p q : List LoopOp) (i : Nat)
    (o : LoopOut ε τ) (ho : o = .stop ∨ o = .missing ∨ ∃ x, o = .raised x) (hi : i < p.countP (· == .iterate))
    (h : (((LoopState.start content).run lookup features dtypes p).2.step lookup features dtypes (.element i)).1 = o) :
    (((LoopState.start content).run lookup features dtypes (p ++ .element i :: q)).2.step lookup features dtypes (.element i)).1 = .stop := by
  have hinv := loopInv_all content lookup features dtypes p
  change LoopInv content lookup features dtypes p ((LoopState.start content).run lookup features dtypes p).2 at hinv
  have hstay : ∀ (q : List LoopOp) (s : LoopState ε), s.gens[i]? = some .finished → (s.run lookup features dtypes q).2.gens[i]? = some .finished := by
    intro q
    induction q with
    | nil => intro s hs; exact hs
    | cons a q ih => intro s hs; exact ih _ (gen_stays lookup features dtypes i s a hs)
  have hfin : (((LoopState.start content).run lookup features dtypes p).2.step lookup features dtypes (.element i)).2.gens[i]? = some .finished := by
    generalize ((LoopState.start content).run lookup features dtypes p).2 = s at h hinv
    have hlt : i < s.gens.length := by rw [hinv.gens]; exact hi
    have hset : (s.gens.set i LoopGen.finished)[i]? = some .finished := by
      rw [List.getElem?_set]; simp [hlt]
    simp only [LoopState.step, LoopState.genNext] at h ⊢
    cases hg : s.gens[i]? with
    | none => rw [List.getElem?_eq_none_iff] at hg; omega
    | some g =>
      cases g with
      | finished => simp only; exact hg
      | running =>
        rw [hg] at h
        simp only at h ⊢
        split
        · rename_i e r1 hn
          rw [hn] at h
          simp only at h
          split
          · rename_i d hd
            rw [hd] at h
            simp only at h
            exfalso
            split at h <;> (subst h; simp at ho)
          · exact hset
        · exact hset
  rw [loop_run_append]
  simp only [LoopState.run]
  have := hstay q _ hfin
  simp only [LoopState.step, LoopState.genNext] at this ⊢
  rw [this]

-- The hypotheses are met: an iteration ends, the reader is reset, and the iteration is still at its end while a loop starts again.
example : ((LoopState.start (fun _ => ([7], none) : Nat → List Nat × Option Err)).run (τ := Nat) (fun e _ => some e) [[120]] 1
      [.iterate, .element 0, .element 0, .reset, .element 0, .next]).1 = [.done, .element [([120], 7)], .stop, .done, .stop, .example 7] := by decide +kernel

/-- What a call of the C++ interface returns, as Python sees it. -/
def pyResult : Res (Option ε) → LoopOut ε τ
  | .ok (some e) => .example e
  | .ok none => .noExample
  | .err x => .raised x
  | .ub _ => .done

/-- The calls as a program. -/
def pyCall : ReadCall → LoopOp
  | .read => .read
  | .peek => .peek

theorem pyCall_read : pyCall .read = .read := rfl
theorem pyCall_peek : pyCall .peek = .peek := rfl
theorem pyResult_some (e : ε) : (pyResult (.ok (some e)) : LoopOut ε τ) = .example e := rfl
theorem pyResult_none : (pyResult (.ok none) : LoopOut ε τ) = .noExample := rfl
theorem pyResult_err (x : Err) : (pyResult (.err x) : LoopOut ε τ) = .raised x := rfl

/-- **C110**, about the reader that its theorems are about: whatever the calls of one epoch of a real reader return, as far as C89 allows it (for every schedule of its threads), is returned by
a reader with some examples and an ending. -/
theorem C110_reader {β : Type} {holds : Batch β → ε → Prop} {good : Batch β → Bool} {bad : BadHandling} {all : List (Batch β)}
    (lookup : ε → Bytes → Option τ) (hist : List (ReadCall × Res (Option ε))) (h : BatchSession holds good bad all hist) :
    ∃ es ending, ((LoopState.start fun _ => (es, ending)).run lookup [] 0 (hist.map fun x => pyCall x.1)).1 = hist.map fun x => pyResult x.2 := by
  have again := h.again
  have sticky := h.sticky
  have defined := h.defined
  clear h
  have shift : ∀ (e : ε) es ending (p : List LoopOp) n, (∀ a ∈ p, a = .read ∨ a = .peek) →
      ((⟨⟨fun _ => (e :: es, ending), 0, n + 1⟩, []⟩ : LoopState ε).run lookup [] 0 p).1 = ((⟨⟨fun _ => (es, ending), 0, n⟩, []⟩ : LoopState ε).run lookup [] 0 p).1 := by
    intro e es ending p
    induction p with
    | nil => intros; rfl
    | cons a p ih =>
      intro n ha
      have hp : (⟨fun _ => (e :: es, ending), 0, n + 1⟩ : LoopReader ε).peekExample = (⟨fun _ => (es, ending), 0, n⟩ : LoopReader ε).peekExample := by
        simp [LoopReader.peekExample]
      have hrest : ∀ a ∈ p, a = .read ∨ a = .peek := fun a h => ha a (by simp [h])
      rcases ha a (by simp) with rfl | rfl
      · simp only [LoopState.run, LoopState.step, LoopReader.readExample]
        rw [hp]
        rcases peek_cases (⟨fun _ => (es, ending), 0, n⟩ : LoopReader ε) with ⟨e', hq, _⟩ | ⟨hq, _⟩ | ⟨x, hq, _⟩ <;> rw [hq] <;> simp only
        · rw [ih (n + 1) hrest]
        · rw [ih n hrest]
        · rw [ih n hrest]
      · simp only [LoopState.run, LoopState.step]
        rw [hp]
        rcases peek_cases (⟨fun _ => (es, ending), 0, n⟩ : LoopReader ε) with ⟨e', hq, _⟩ | ⟨hq, _⟩ | ⟨x, hq, _⟩ <;> rw [hq] <;> simp only <;> rw [ih n hrest]
  have hcalls : ∀ h : List (ReadCall × Res (Option ε)), ∀ a ∈ h.map (fun x => pyCall x.1), a = .read ∨ a = .peek := by
    intro h a ha
    obtain ⟨x, _, rfl⟩ := List.mem_map.1 ha
    cases x.1
    · exact .inl rfl
    · exact .inr rfl
  have hconst : ∀ (o : Res (Option ε)) (ending : Option Err) (h : List (ReadCall × Res (Option ε))), (∀ x ∈ h, x.2 = o) →
      (o = .ok none ∧ ending = none ∨ ∃ x, o = .err x ∧ ending = some x) →
      ((LoopState.start fun _ => (([] : List ε), ending)).run lookup [] 0 (h.map fun x => pyCall x.1)).1 = h.map fun x => pyResult x.2 := by
    intro o ending h hall ho
    induction h with
    | nil => rfl
    | cons x h ih =>
      have hx := hall x (by simp)
      have ih' := ih (fun y hy => hall y (by simp [hy]))
      obtain ⟨c, o'⟩ := x
      simp only at hx
      subst hx
      simp only [LoopState.start] at ih'
      rcases ho with ⟨rfl, rfl⟩ | ⟨x, rfl, rfl⟩ <;> cases c <;>
        simp only [List.map_cons, pyCall_read, pyCall_peek, pyResult_some, pyResult_none, pyResult_err, LoopState.run, LoopState.step, LoopReader.readExample, LoopReader.peekExample, LoopState.start, List.getElem?_nil] <;>
        rw [ih']
  induction hist with
  | nil => exact ⟨[], none, rfl⟩
  | cons x h ih =>
    obtain ⟨c, o⟩ := x
    have hrest := ih (fun i c o o' h1 h2 => again (i + 1) c o o' h1 h2)
      (fun i j c o c' o' h1 h2 h3 h4 => sticky (i + 1) (j + 1) c o c' o' h1 h2 (by omega) h4) (fun i c w => defined (i + 1) c w)
    have hall : (∀ e, o ≠ .ok (some e)) → ∀ y ∈ (c, o) :: h, y.2 = o := by
      intro hne y hy
      obtain ⟨j, hj⟩ := List.mem_iff_getElem?.1 hy
      exact sticky 0 j c o y.1 y.2 rfl hne (Nat.zero_le _) hj
    match o with
    | .ok (some e) =>
      cases c with
      | read =>
        obtain ⟨es, ending, hr⟩ := hrest
        refine ⟨e :: es, ending, ?_⟩
        simp only [List.map_cons, pyCall_read, pyCall_peek, pyResult_some, pyResult_none, pyResult_err, LoopState.run, LoopState.step, LoopReader.readExample, LoopReader.peekExample, LoopState.start, List.getElem?_cons_zero]
        rw [shift e es ending _ 0 (hcalls h)]
        rw [← hr]
        rfl
      | peek =>
        cases h with
        | nil =>
          refine ⟨[e], none, ?_⟩
          simp [pyCall_read, pyCall_peek, pyResult_some, pyResult_none, pyResult_err, LoopState.run, LoopState.step, LoopReader.peekExample, LoopState.start]
        | cons y h =>
          obtain ⟨c', o'⟩ := y
          have ho' : o' = .ok (some e) := again 0 c' (.ok (some e)) o' rfl rfl
          subst ho'
          obtain ⟨es, ending, hr⟩ := hrest
          refine ⟨es, ending, ?_⟩
          have hpk : (⟨fun _ => (es, ending), 0, 0⟩ : LoopReader ε).peekExample = .ok (some e) := by
            rcases peek_cases (⟨fun _ => (es, ending), 0, 0⟩ : LoopReader ε) with ⟨e', hq, _⟩ | ⟨hq, _⟩ | ⟨x, hq, _⟩ <;>
              cases c' <;>
              simp only [List.map_cons, pyCall_read, pyCall_peek, pyResult_some, pyResult_none, pyResult_err, LoopState.run, LoopState.step, LoopReader.readExample, LoopState.start, hq, List.cons.injEq] at hr
            · cases hr.1; exact hq
            · cases hr.1; exact hq
            · cases hr.1
            · cases hr.1
            · cases hr.1
            · cases hr.1
          rw [List.map_cons, List.map_cons (f := fun x => pyResult x.2) (a := (ReadCall.peek, Res.ok (some e))), ← hr]
          simp only [pyCall_read, pyCall_peek, pyResult_some, pyResult_none, pyResult_err, LoopState.run, LoopState.step, LoopState.start, hpk]
    | .ok none => exact ⟨[], none, hconst (.ok none) none _ (hall (by simp)) (.inl ⟨rfl, rfl⟩)⟩
    | .err x => exact ⟨[], some x, hconst (.err x) (some x) _ (hall (by simp)) (.inr ⟨x, rfl, rfl⟩)⟩
    | .ub w => exact absurd rfl (defined 0 c w)

-- A history that meets the hypothesis: one batch, which is peeked at and read, and then the end.
example : BatchSession (fun (_ : Batch Nat) (e : Nat) => e = 5) (fun _ => true) .error [⟨0, [5], 1⟩]
    [(.peek, .ok (some 5)), (.read, .ok (some 5)), (.read, .ok none)] := by
  refine ⟨?_, ?_, ?_, ?_, ?_, ?_⟩
  · intro i c e h
    match i, h with
    | 0, h => simp at h; exact ⟨⟨0, [5], 1⟩, by decide +kernel, h.2.symm⟩
    | 1, h => simp at h; exact ⟨⟨0, [5], 1⟩, by decide +kernel, h.2.symm⟩
    | 2, h => simp at h
    | i + 3, h => simp at h
  · intro i c o o' h h'
    match i, h, h' with
    | 0, h, h' => simp at h h'; rw [← h, ← h'.2]
    | 1, h, _ => simp at h
    | 2, h, _ => simp at h
    | i + 3, h, _ => simp at h
  · intro i c h
    match i, h with
    | 0, h => simp at h
    | 1, h => simp at h
    | 2, h => exact ⟨by decide +kernel, by simp⟩
    | i + 3, h => simp at h
  · intro i c e h
    match i, h with
    | 0, h => simp at h
    | 1, h => simp at h
    | 2, h => simp at h
    | i + 3, h => simp at h
  · intro i c w h
    match i, h with
    | 0, h => simp at h
    | 1, h => simp at h
    | 2, h => simp at h
    | i + 3, h => simp at h
  · intro i j c o c' o' h hne hij h'
    match i, h with
    | 0, h => simp at h; exact absurd h.2.symm (hne 5)
    | 1, h => simp at h; exact absurd h.2.symm (hne 5)
    | 2, h =>
      simp at h
      match j, hij, h' with
      | 2, _, h' => simp at h'; rw [← h.2, ← h'.2]
      | j + 3, _, h' => simp at h'
    | i + 3, h => simp at h

/-- Three examples, in each epoch in another order. -/
def threeExamples : Nat → List Nat × Option Err := fun n => (if n % 2 = 0 then [1, 2, 3] else [3, 2, 1], none)

-- Two loops, one of them broken off, and a reset.
example : ((LoopState.start threeExamples).run (τ := Nat) (fun e _ => some e) [] 0 [.next, .peek, .next, .read, .next, .reset, .next]).1 =
    [.example 1, .example 2, .example 2, .example 3, .stop, .done, .example 3] := by decide +kernel

-- The hypothesis of `C110_tf_exact` and `C110_tf_partial` is met, and what the iterations see.
example : Featured (fun e f => if f = [120] then some (e * 10) else none) [[120]] 1 (threeExamples 1).1 ∧
    ((LoopState.start threeExamples).run (fun e f => if f = [120] then some (e * 10) else none) [[120]] 1
      [.iterate, .element 0, .reset, .iterate, .element 1, .element 1, .element 1, .element 1]).1 =
    [.done, .element [([120], 10)], .done, .done, .element [([120], 30)], .element [([120], 20)], .element [([120], 10)], .stop] := by
  refine ⟨⟨by decide, by simp⟩, by decide +kernel⟩

/-- **C110** is violated for datasets: the second iteration over a dataset is empty (for every reader without errors, and whatever its examples): nothing resets the reader.
A second epoch of training sees no data. -/
theorem C110_tf_violated (content : Nat → List ε × Option Err) (lookup : ε → Bytes → Option τ) (features : List Bytes) (dtypes : Nat)
    (hf : Featured lookup features dtypes (content 0).1) (hend : (content 0).2 = none) (m : Nat) :
    ((LoopState.start content).run lookup features dtypes
      (.iterate :: List.replicate ((content 0).1.length + 1) (.element 0) ++ .iterate :: List.replicate m (.element 1))).1.drop ((content 0).1.length + 3) =
      List.replicate m .stop := by
  generalize hp : LoopOp.iterate :: List.replicate ((content 0).1.length + 1) (.element 0) = p
  have hlen : p.length = (content 0).1.length + 2 := by rw [← hp]; simp
  have hit : p.countP (· == .iterate) = 1 := by
    rw [← hp]
    simp [List.countP_cons, List.countP_replicate]
  have hre : p.countP (· == .reset) = 0 := by
    rw [← hp]
    simp [List.countP_cons, List.countP_replicate]
  -- the first iteration
  obtain ⟨ds, h1, _, h3⟩ := C110_tf_exact content lookup features dtypes [] ((content 0).1.length + 1) (by simpa [resets, usedUp] using hf)
  simp only [List.zip_nil_left, List.nil_append, List.length_nil, List.countP_nil] at h1 h3
  have hr0 : resets ([] : List (LoopOp × LoopOut ε τ)) = 0 := rfl
  have hu0 : usedUp ([] : List (LoopOp × LoopOut ε τ)) = 0 := rfl
  rw [hr0, hu0, List.drop_zero] at h1
  rw [hr0, hend, hp] at h3
  have houts : ((LoopState.start content).run lookup features dtypes p).1 = .done :: (ds.map .element ++ [.stop]) := by
    have : ((LoopState.start content).run lookup features dtypes p).1 = LoopOut.done :: ((LoopState.start content).run lookup features dtypes p).1.drop 1 := by
      rw [← hp]; simp [LoopState.run, LoopState.step]
    rw [this, show (1 : Nat) = 0 + 1 from rfl, h3]
    simp only [iterationSees, List.append_nil]
    rw [← h1, List.replicate_succ, show (LoopOut.stop : LoopOut ε τ) :: List.replicate ds.length .stop = [.stop] ++ List.replicate ds.length .stop from rfl,
      ← List.append_assoc, List.take_append_of_le_length (by simp), List.take_of_length_le (by simp)]
  have hexact := C110_tf_exact content lookup features dtypes p m
  simp only at hexact
  have hzip : p.zip ((LoopState.start content).run lookup features dtypes p).1 =
      (LoopOp.iterate, LoopOut.done) :: ((ds.map fun d => (LoopOp.element 0, LoopOut.element d)) ++ [(LoopOp.element 0, LoopOut.stop)]) := by
    rw [houts, ← hp, ← h1]
    simp only [List.zip_cons_cons]
    congr 1
    rw [List.replicate_succ', List.zip_append (by simp)]
    congr 1
    have hz : ∀ l : List (List (Bytes × τ)), (List.replicate l.length (LoopOp.element 0)).zip (l.map (LoopOut.element (ε := ε))) =
        l.map fun d => (LoopOp.element 0, LoopOut.element d) := by
      intro l
      induction l with
      | nil => rfl
      | cons d l ih => simp only [List.length_cons, List.replicate_succ, List.map_cons, List.zip_cons_cons, ih]
    exact hz ds
  have hno : ∀ x ∈ (LoopOp.iterate, LoopOut.done) :: ((ds.map fun d => (LoopOp.element 0, (LoopOut.element d : LoopOut ε τ))) ++ [(LoopOp.element 0, LoopOut.stop)]),
      (x.1 != LoopOp.reset) = true := by
    intro x hx
    rcases List.mem_cons.1 hx with rfl | hx
    · rfl
    · rcases List.mem_append.1 hx with hx | hx
      · obtain ⟨d, _, rfl⟩ := List.mem_map.1 hx
        rfl
      · rw [List.mem_singleton.1 hx]
        rfl
  have hres : resets (p.zip ((LoopState.start content).run lookup features dtypes p).1) = 0 := by
    rw [hzip]
    unfold resets
    rw [List.countP_eq_zero]
    intro x hx
    have := hno x hx
    simpa using this
  have hused : usedUp (p.zip ((LoopState.start content).run lookup features dtypes p).1) = (content 0).1.length := by
    rw [hzip]
    unfold usedUp
    rw [← h1, takeWhile_all _ (fun x hx => hno x (List.mem_reverse.1 hx)), List.countP_reverse]
    rw [List.countP_cons, List.countP_append]
    have : ∀ l : List (List (Bytes × τ)), (l.map fun d => (LoopOp.element 0, (LoopOut.element d : LoopOut ε τ))).countP uses = l.length := by
      intro l
      induction l with
      | nil => rfl
      | cons d l ih => rw [List.map_cons, List.countP_cons, ih]; simp [uses]
    rw [this]
    simp [uses]
  rw [hres, hused, hit, hlen] at hexact
  obtain ⟨ds2, h21, _, h23⟩ := hexact (by rw [List.drop_length]; exact ⟨hf.1, by simp⟩)
  rw [List.drop_length] at h21
  rw [List.length_nil] at h21
  rw [h23, hend, List.length_eq_zero_iff.1 h21]
  simp [iterationSees]

-- The hypotheses are met: with three examples, the first iteration sees them and the second sees nothing.
example : ((LoopState.start threeExamples).run (fun e f => if f = [120] then some (e * 10) else none) [[120]] 1
      [.iterate, .element 0, .element 0, .element 0, .element 0, .iterate, .element 1]).1 =
    [.done, .element [([120], 10)], .element [([120], 20)], .element [([120], 30)], .stop, .done, .stop] := by decide +kernel

end Mlio
