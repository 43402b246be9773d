import Verif.Proofs.EndToEnd
import Verif.Proofs.Failing

/-!
# Epochs of a dataset that cannot be read to its end: proofs
-/

namespace Mlio
open Spec Machine

/-- Every epoch of the machine gives `xs` and then the error. -/
structure Machine.Breaks {α : Type} (m : Machine α) (xs : List α) (e : Err) : Prop where
  first : m.ReadsTo m.init xs (.err e)
  again : ∀ s, m.ReadsTo (m.reset s) xs (.err e)

theorem breaks_of_resets {α : Type} {m : Machine α} {xs : List α} {e : Err} (h : m.Resets)
    (hy : m.ReadsTo m.init xs (.err e)) : m.Breaks xs e := ⟨hy, fun s => by rw [h s]; exact hy⟩

theorem shard_prefix {α : Type} (n k : Nat) (xs ys : List α) : shard n k xs <+: shard n k (xs ++ ys) := by
  unfold shard
  rw [List.zipIdx_append, List.filter_append, List.map_append]
  exact List.prefix_append _ _

theorem range_prefix {α : Type} (skip : Nat) (num : Option Nat) (xs ys : List α)
    (hn : ∀ n, num = some n → xs.length < skip + n) : xs.drop skip <+: range skip num (xs ++ ys) := by
  unfold range
  have h0 : xs.drop skip <+: (xs ++ ys).drop skip := by
    rw [List.drop_append]
    exact List.prefix_append _ _
  cases num with
  | none => exact h0
  | some n =>
    have := hn n rfl
    simp only
    obtain ⟨r, hr⟩ := h0
    rw [← hr, List.take_append]
    rw [List.take_of_length_le (by simp; omega)]
    exact List.prefix_append _ _

/-- What a machine gives in an epoch when reading `f rest` of a dataset whose part `rest` cannot be read. -/
inductive Machine.Tries {α : Type} (m : Machine α) (s : m.σ) (f : List α → List α) (e : Err) : Prop
  | unaffected (zs : List α) (h : m.Yields s zs (.ok none)) (hf : ∀ rest, f rest = zs)
  | nothing (h : m.ReadsTo s [] (.ok none)) (hf : ∀ rest, f rest = [])
  | fails (ys : List α) (h : m.ReadsTo s ys (.err e)) (hf : ∀ rest, ys <+: f rest)

/-- The instance readers without shuffling. -/
theorem make_tries {α : Type} (R : Rng) (o : ReadOptions) (core r : Machine α) (xs : List α) (e : Err) (hc : core.Breaks xs e)
    (hs : o.shuffle = none) (hm : makeInstanceReader R o core = some r) :
    ∀ u, (u = r.init ∨ ∃ v, u = r.reset v) → r.Tries u (fun rest => selected o (xs ++ rest)) e := by
  have y0 : ∀ u, (u = core.base.init ∨ ∃ v, u = core.base.reset v) → core.base.ReadsTo u xs (.err e) := by
    rintro u (rfl | ⟨v, rfl⟩)
    · exact base_reads hc.first
    · exact base_reads (hc.again v.1)
  have y1 : ∀ u, (u = (if o.toSkip > 0 ∨ o.toRead.isSome then (ranged o.toSkip o.toRead core.base).base else core.base).init ∨
      ∃ v, u = (if o.toSkip > 0 ∨ o.toRead.isSome then (ranged o.toSkip o.toRead core.base).base else core.base).reset v) →
      (∃ zs, (if o.toSkip > 0 ∨ o.toRead.isSome then (ranged o.toSkip o.toRead core.base).base else core.base).Yields u zs (.ok none) ∧
        ∀ rest, range o.toSkip o.toRead (xs ++ rest) = zs) ∨
      (∃ ys, (if o.toSkip > 0 ∨ o.toRead.isSome then (ranged o.toSkip o.toRead core.base).base else core.base).ReadsTo u ys (.err e) ∧
        ∀ rest, ys <+: range o.toSkip o.toRead (xs ++ rest)) := by
    by_cases hr : o.toSkip > 0 ∨ o.toRead.isSome
    · rw [if_pos hr]
      intro u hu
      obtain ⟨i, hu, hi⟩ : ∃ i, u = ((⟨i, true, 0⟩ : RangedState _), none) ∧ core.base.ReadsTo i xs (.err e) := by
        rcases hu with rfl | ⟨v, rfl⟩
        · exact ⟨_, rfl, y0 _ (Or.inl rfl)⟩
        · exact ⟨_, rfl, y0 _ (Or.inr ⟨v.1.inner, rfl⟩)⟩
      subst hu
      by_cases hn : ∃ n, o.toRead = some n ∧ o.toSkip + n ≤ xs.length
      · obtain ⟨n, hn, hle⟩ := hn
        rw [hn]
        refine Or.inl ⟨_, base_yields (ranged_before _ n hi hle), fun rest => ?_⟩
        simp only [range]
        rw [List.drop_append_of_le_length (by omega), List.take_append_of_le_length (by simp; omega)]
      · have hn' : ∀ n, o.toRead = some n → xs.length < o.toSkip + n := by
          intro n h
          apply Classical.byContradiction
          intro h2
          exact hn ⟨n, h, by omega⟩
        exact Or.inr ⟨_, base_reads (ranged_fails _ _ hi hn'), fun rest => range_prefix _ _ _ _ hn'⟩
    · rw [if_neg hr]
      intro u hu
      have e1 : o.toSkip = 0 := by omega
      have e2 : o.toRead = none := by
        cases hn : o.toRead with
        | none => rfl
        | some n => simp [hn] at hr
      exact Or.inr ⟨xs, y0 u hu, fun rest => by simp [range, e1, e2]⟩
  unfold makeInstanceReader at hm
  simp only at hm
  unfold selected
  simp only
  generalize (if o.toSkip > 0 ∨ o.toRead.isSome then (ranged o.toSkip o.toRead core.base).base else core.base) = r1 at *
  split at hm
  · cases hm
  · next hn =>
    have y2 : ∀ u, (u = (if o.numShards > 1 then (sharded o.numShards o.shardIndex r1).base else r1).init ∨
        ∃ v, u = (if o.numShards > 1 then (sharded o.numShards o.shardIndex r1).base else r1).reset v) →
        (∃ zs, (if o.numShards > 1 then (sharded o.numShards o.shardIndex r1).base else r1).Yields u zs (.ok none) ∧
          ∀ rest, (if o.numShards > 1 then shard o.numShards o.shardIndex (range o.toSkip o.toRead (xs ++ rest))
            else range o.toSkip o.toRead (xs ++ rest)) = zs) ∨
        (∃ ys, (if o.numShards > 1 then (sharded o.numShards o.shardIndex r1).base else r1).ReadsTo u ys (.err e) ∧
          ∀ rest, ys <+: (if o.numShards > 1 then shard o.numShards o.shardIndex (range o.toSkip o.toRead (xs ++ rest))
            else range o.toSkip o.toRead (xs ++ rest))) := by
      by_cases hc : o.numShards > 1
      · rw [if_pos hc]
        simp only [if_pos hc]
        intro u hu
        have hk : o.shardIndex < o.numShards := by omega
        obtain ⟨i, hu, hi⟩ : ∃ i, u = ((i, true), none) ∧ (i = r1.init ∨ ∃ v, i = r1.reset v) := by
          rcases hu with rfl | ⟨v, rfl⟩
          · exact ⟨_, rfl, Or.inl rfl⟩
          · exact ⟨_, rfl, Or.inr ⟨v.1.1, rfl⟩⟩
        subst hu
        rcases y1 i hi with ⟨zs, h1, h2⟩ | ⟨ys, h1, h2⟩
        · exact Or.inl ⟨_, base_yields (sharded_yields _ _ hk (by simp) h1), fun rest => by rw [h2 rest]⟩
        · refine Or.inr ⟨_, base_reads (sharded_fails _ _ hk h1), fun rest => ?_⟩
          obtain ⟨z, hz⟩ := h2 rest
          rw [← hz]
          exact shard_prefix _ _ _ _
      · rw [if_neg hc]
        simp only [if_neg hc]
        exact y1
    generalize (if o.numShards > 1 then (sharded o.numShards o.shardIndex r1).base else r1) = r2 at *
    cases hq : o.sampleRatio with
    | none =>
      simp only [hq, hs, Option.some.injEq] at hm
      subst hm
      intro u hu
      rcases y2 u hu with ⟨zs, h1, h2⟩ | ⟨ys, h1, h2⟩
      · exact .unaffected zs h1 h2
      · exact .fails ys h1 h2
    | some q =>
      simp only [hq, hs] at hm
      split at hm
      · next hk =>
        cases hm
        intro u hu
        obtain ⟨i, hu, hi⟩ : ∃ i, u = ((⟨i, [], 0⟩ : SampledState _ _), none) ∧ (i = r2.init ∨ ∃ v, i = r2.reset v) := by
          rcases hu with rfl | ⟨v, rfl⟩
          · exact ⟨_, rfl, Or.inl rfl⟩
          · exact ⟨_, rfl, Or.inr ⟨v.1.inner, rfl⟩⟩
        subst hu
        rcases y2 i hi with ⟨zs, h1, h2⟩ | ⟨ys, h1, h2⟩
        · exact .unaffected _ (base_yields (sampled_yields q hk h1)) (fun rest => congrArg (sample q.keep) (h2 rest))
        · rcases sampled_fails q hk h1 with ⟨zs, h3, h4⟩ | ⟨h3, h4⟩
          · refine .fails zs (base_reads h3) (fun rest => ?_)
            obtain ⟨z, hz⟩ := h2 rest
            simp only
            rw [← hz]
            exact h4 z
          · refine .nothing (base_reads h3) (fun rest => ?_)
            obtain ⟨z, hz⟩ := h2 rest
            simp only
            rw [← hz]
            exact h4 z
      · cases hm

theorem epochOrder_of_window {α : Type} (o : ReadOptions) (p : ShuffleParams) (hp : o.shuffle = some p) (sel ys : List α)
    (h : WindowShuffle p.effWindow sel ys) : EpochOrder o sel ys := by
  unfold EpochOrder
  rw [hp]
  obtain ⟨idx, i1, i2, i3⟩ := h
  refine ⟨?_, idx, i1, i2, ?_⟩
  · have hp : (ys.map some).Perm (sel.map some) := by
      rw [i2]
      refine (i1.map _).trans ?_
      have : (List.range sel.length).map (fun i => sel[i]?) = sel.map some := by
        apply List.ext_getElem?
        intro i
        simp only [List.getElem?_map]
        by_cases hi : i < sel.length
        · simp [hi]
        · simp [hi]
      rw [this]
    have := hp.filterMap id
    simpa [List.filterMap_map] using this
  · intro k i hk
    split
    · have : i ∈ List.range sel.length := i1.mem_iff.1 (List.mem_of_getElem? hk)
      simp at this
      omega
    · next hw =>
      have := i3 k i hk
      simpa [ShuffleParams.effWindow, hw] using this

theorem epochOrder_nil {α : Type} (o : ReadOptions) : EpochOrder o ([] : List α) [] := by
  unfold EpochOrder
  split
  · rfl
  · exact ⟨List.Perm.refl _, [], List.Perm.refl _, rfl, by simp⟩

/-- The instances of an epoch of a dataset that cannot be read to its end. -/
theorem epoch_tries {α : Type} (R : Rng) (hR : R.Lawful) (o : ReadOptions) (core : Machine α)
    (xs : List α) (e : Err) (hc : core.Breaks xs e) (hlen : xs.length < 2 ^ 64 - 1)
    (r : Machine α) (hm : makeInstanceReader R o core = some r) (u : r.σ) (hu : u = r.init ∨ ∃ v, u = r.reset v) :
    ((∀ rest, selected o (xs ++ rest) = selected o xs) ∧ ∃ ys, EpochOrder o (selected o xs) ys ∧ r.ReadsTo u ys (.ok none) ∧
      (ys = [] ∨ r.Yields u ys (.ok none))) ∨
    (∃ ys, r.ReadsTo u ys (.err e) ∧ ∀ rest, ∃ zs, ys <+: zs ∧ EpochOrder o (selected o (xs ++ rest)) zs) := by
  obtain ⟨inner, hi, hr0⟩ := make_split R o core r hm
  have htr := make_tries R { o with shuffle := none } core inner xs e hc rfl hi
  have hsl := selected_length_le o xs
  have hself : ∀ zs, (∀ rest, selected o (xs ++ rest) = zs) → (∀ rest, selected o (xs ++ rest) = selected o xs) ∧ selected o xs = zs := by
    intro zs h
    have h0 : selected o xs = zs := by have := h []; rwa [List.append_nil] at this
    exact ⟨fun rest => by rw [h rest, h0], h0⟩
  cases hsh : o.shuffle with
  | none =>
    rw [hsh] at hr0
    simp only at hr0
    subst hr0
    have hord : ∀ sel : List α, EpochOrder o sel sel := by intro sel; unfold EpochOrder; rw [hsh]
    rcases htr u hu with ⟨zs, h, hf⟩ | ⟨h, hf⟩ | ⟨ys, h, hf⟩
    · obtain ⟨a, rfl⟩ := hself zs hf
      exact Or.inl ⟨a, _, hord _, h.readsTo, Or.inr h⟩
    · obtain ⟨a, b⟩ := hself [] hf
      exact Or.inl ⟨a, [], by rw [b]; exact hord _, h, Or.inl rfl⟩
    · exact Or.inr ⟨ys, h, fun rest => ⟨_, hf rest, hord _⟩⟩
  | some p =>
    rw [hsh] at hr0
    simp only at hr0
    subst hr0
    obtain ⟨i, g, hu, hi'⟩ : ∃ i g, u = ((⟨i, [], true, g⟩ : ShuffledState _ _ _), none) ∧ (i = inner.init ∨ ∃ v, i = inner.reset v) := by
      rcases hu with rfl | ⟨v, rfl⟩
      · exact ⟨_, _, rfl, Or.inl rfl⟩
      · exact ⟨_, _, rfl, Or.inr ⟨v.1.inner, rfl⟩⟩
    subst hu
    rcases htr i hi' with ⟨zs, h, hf⟩ | ⟨h, hf⟩ | ⟨ys, h, hf⟩
    · obtain ⟨a, rfl⟩ := hself zs hf
      obtain ⟨ys, h1, h2, _⟩ := shuffled_yields R hR p g h (fun _ => by omega)
      exact Or.inl ⟨a, ys, epochOrder_of_window o p hsh _ _ h2, (base_yields h1).readsTo, Or.inr (base_yields h1)⟩
    · obtain ⟨a, b⟩ := hself [] hf
      exact Or.inl ⟨a, [], by rw [b]; exact epochOrder_nil o, base_reads (shuffled_ends R hR p g h), Or.inl rfl⟩
    · have hyl : ys.length ≤ xs.length := by
        have := (hf []).length_le
        simp only [List.append_nil, selected_noshuffle] at this
        omega
      obtain ⟨os, h1, h2⟩ := shuffled_fails R hR p g h (fun _ => by omega)
      refine Or.inr ⟨os, base_reads h1, fun rest => ?_⟩
      obtain ⟨z, hz⟩ := hf rest
      obtain ⟨zs, h3, h4⟩ := h2 z
      simp only [selected_noshuffle] at hz
      rw [hz] at h4
      exact ⟨zs, h3, epochOrder_of_window o p hsh _ _ h4⟩

theorem examples_prefix {β ε : Type} (dec : β → Except Err (Option ε)) : ∀ qs rs : List β,
    examples dec qs <+: examples dec (qs ++ rs)
  | [], _ => List.nil_prefix
  | q :: qs, rs => by
    simp only [examples, List.cons_append]
    split
    · exact (List.prefix_cons_inj _).2 (examples_prefix dec qs rs)
    · exact examples_prefix dec qs rs
    · exact List.prefix_refl _

/-- Every epoch of a dataset that cannot be read to its end, under every schedule. -/
theorem dataset_fails {α ε : Type} (R : Rng) (hR : R.Lawful) (o : ReadOptions) (core : Machine α)
    (xs : List α) (e : Err) (hc : core.Breaks xs e) (hlen : xs.length < 2 ^ 64 - 1)
    (b : Nat) (hb : 0 < b) (l : LastHandling) (hl : l ≠ .padWarn)
    (r : Machine α) (hm : makeInstanceReader R o core = some r)
    (P Q : Nat) (hP : 0 < P) (dec : Batch α → Except Err (Option ε))
    (s : PState (batched b l r) ε) (hr : Reachable P Q dec s) (rest : List α) :
    ∃ ys, EpochOrder o (selected o (xs ++ rest)) ys ∧
      delivered s.out <+: examples dec (batches b l ys) ∧
      (.ok none ∈ s.out → selected o (xs ++ rest) = selected o xs ∧ delivered s.out = examples dec (batches b l ys) ∧
        ∀ q ∈ batches b l ys, ∃ x, dec q = .ok x) ∧
      (∀ e', .err e' ∈ s.out → e' = e ∨ ∃ q ∈ batches b l ys, dec q = .error e') ∧
      (∀ w, .ub w ∉ s.out) := by
  have source : ∀ u : (batched b l r).σ, (u = (batched b l r).init ∨ ∃ v, u = (batched b l r).reset v) →
      ((∀ rest, selected o (xs ++ rest) = selected o xs) ∧
        ∃ ys, EpochOrder o (selected o xs) ys ∧ Source (batched b l r) u (batches b l ys) (.ok none)) ∨
      (∃ bs, Source (batched b l r) u bs (.err e) ∧
        ∀ rest, ∃ zs, bs <+: batches b l zs ∧ EpochOrder o (selected o (xs ++ rest)) zs) := by
    intro u hu
    have hz : u.2 = 0 := by rcases hu with rfl | ⟨v, rfl⟩ <;> rfl
    have hue : u = (u.1, 0) := Prod.ext rfl hz
    rw [hue]
    rcases epoch_tries R hR o core xs e hc hlen r hm u.1 (by
      rcases hu with rfl | ⟨v, rfl⟩
      · exact Or.inl rfl
      · exact Or.inr ⟨v.1, rfl⟩) with ⟨h0, ys, h1, h2, h3⟩ | ⟨ys, h1, h2⟩
    · refine Or.inl ⟨h0, ys, h1, ?_, fun i q hq => ((C24_batches_meaning b hb l ys).2 i q hq).1, Or.inl rfl⟩
      rcases h3 with rfl | h3
      · have : batches b l ([] : List α) = [] := batchesFrom_nil 0 b hb l
        rw [this]
        exact batched_ends b hb l h2
      · exact (batched_yields (m := r) b hb l hl h3).readsTo
    · refine Or.inr ⟨batches b .drop ys, ⟨batched_fails b hb l h1,
        fun i q hq => ((C24_batches_meaning b hb .drop ys).2 i q hq).1, Or.inr ⟨e, rfl⟩⟩, fun rest => ?_⟩
      obtain ⟨zs, ⟨z, rfl⟩, h4⟩ := h2 rest
      exact ⟨_, batches_prefix b hb l z ys.length 0 ys (Nat.le_refl _), h4⟩
  have hs : Sources (batched b l r) := by
    refine ⟨?_, fun u => ?_⟩
    · rcases source _ (Or.inl rfl) with ⟨_, ys, _, h⟩ | ⟨bs, h, _⟩ <;> exact ⟨_, _, h⟩
    · rcases source _ (Or.inr ⟨u, rfl⟩) with ⟨_, ys, _, h⟩ | ⟨bs, h, _⟩ <;> exact ⟨_, _, h⟩
  obtain ⟨bs, t, h1, h2, ⟨n, ot, h3, h4⟩, h5, h6⟩ := C25_order (dec := dec) hP hs s hr
  have noub : ∀ w, .ub w ∉ s.out := by
    intro w hw
    rw [h3] at hw
    rcases List.mem_append.1 hw with hw | hw
    · obtain ⟨x, _, hx⟩ := List.mem_map.1 hw
      cases hx
    · have := (List.mem_replicate.1 hw).2
      rcases h4 with h4 | ⟨e, h4⟩ <;> (rw [h4] at this; cases this)
  rcases source s.start (start_cases hr) with ⟨h0, ys, ho, hsrc⟩ | ⟨bs', hsrc, hp⟩
  · obtain ⟨rfl, rfl⟩ := reads_unique hsrc.tail_ne h1.tail_ne hsrc.reads h1.reads
    refine ⟨ys, by rw [h0 rest]; exact ho, h2, fun hx => ⟨h0 rest, (h5 hx).1, (h5 hx).2.1⟩, fun e' he => ?_, noub⟩
    rcases h6 e' he with h | h
    · cases h
    · exact Or.inr h
  · obtain ⟨rfl, rfl⟩ := reads_unique hsrc.tail_ne h1.tail_ne hsrc.reads h1.reads
    obtain ⟨zs, ⟨qs, hq⟩, h8⟩ := hp rest
    refine ⟨zs, h8, h2.trans (hq ▸ examples_prefix dec _ _), fun hx => ?_, fun e' he => ?_, noub⟩
    · have := (h5 hx).2.2
      cases this
    · rcases h6 e' he with h | ⟨q, hq', h⟩
      · exact Or.inl (by cases h; rfl)
      · exact Or.inr ⟨q, by rw [← hq]; exact List.mem_append_left _ hq', h⟩

end Mlio
