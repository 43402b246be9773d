import Verif.Proofs.TextLineReader
import Verif.Props.Pipeline
import Verif.Props.Utf8Stream

/-!
# From data stores to examples: proofs
-/

namespace Mlio
open Spec

/-! ## The core instance reader over stores of rows -/

/-- Items of stores with complete records only. -/
def rowItems (k : Nat) (xss : List (List Bytes)) : List (Nat × Option Bytes) :=
  (xss.zipIdx k).flatMap fun p => p.1.map fun b => (p.2, some b)

def rowContents (xss : List (List Bytes)) : List Content := xss.map fun xs => .records (xs.map fun b => ⟨0, b⟩) none

theorem rowContents_items (xss : List (List Bytes)) : ∀ k, (items k (rowContents xss)).2 = .eof ∧
    (items k (rowContents xss)).1.length = xss.flatten.length ∧
    Assembles .eof (items k (rowContents xss)).1 (rowItems k xss) .eof := by
  induction xss with
  | nil => intro k; exact ⟨rfl, rfl, .eof rfl⟩
  | cons xs xss ih =>
    intro k
    obtain ⟨h1, h2, h3⟩ := ih (k + 1)
    refine ⟨h1, ?_, ?_⟩
    · simp only [rowContents, List.map_cons, items, List.length_append, List.length_map, List.flatten_cons]
      rw [show (List.map (fun xs => Content.records (List.map (fun b => ⟨0, b⟩) xs) none) xss) = rowContents xss from rfl, h2]
    · simp only [rowContents, List.map_cons, items, rowItems, List.zipIdx_cons, List.flatMap_cons]
      rw [show (List.map (fun xs => Content.records (List.map (fun b => ⟨0, b⟩) xs) none) xss) = rowContents xss from rfl]
      rw [show ((xss.zipIdx (k + 1)).flatMap fun p => p.1.map fun b => (p.2, some b)) = rowItems (k + 1) xss from rfl]
      rw [List.map_map]
      generalize hxs : xs = ys
      clear hxs
      induction ys with
      | nil => exact h3
      | cons y ys ihy => exact .complete ihy

/-- Numbering, one store after the other. -/
theorem number_store (k : Nat) (xs : List Bytes) : ∀ (seen : List Nat) (rest : List (Nat × Option Bytes)),
    number seen (xs.map (fun b => (k, some b)) ++ rest) =
      (xs.zipIdx (seen.count k)).map (fun q => ⟨k, q.2, some q.1⟩) ++
        number (seen ++ List.replicate xs.length k) rest := by
  induction xs with
  | nil => intro seen rest; simp
  | cons x xs ih =>
    intro seen rest
    simp only [List.map_cons, List.cons_append, number, ih, List.zipIdx_cons, List.length_cons, List.replicate_succ]
    have : (seen ++ [k]).count k = seen.count k + 1 := by simp
    rw [this, List.append_assoc]
    rfl

theorem number_rows (xss : List (List Bytes)) : ∀ (k : Nat) (seen : List Nat), (∀ j ∈ seen, j < k) →
    number seen (rowItems k xss) =
      (xss.zipIdx k).flatMap fun p => p.1.zipIdx.map fun q => ⟨p.2, q.2, some q.1⟩ := by
  induction xss with
  | nil => intro k seen _; rfl
  | cons xs xss ih =>
    intro k seen h
    simp only [rowItems, List.zipIdx_cons, List.flatMap_cons]
    have h0 : seen.count k = 0 := List.count_eq_zero.2 (fun hm => Nat.lt_irrefl _ (h k hm))
    rw [number_store, h0]
    congr 1
    apply ih (k + 1)
    intro j hj
    rcases List.mem_append.1 hj with hj | hj
    · exact Nat.lt_succ_of_lt (h j hj)
    · rw [(List.mem_replicate.1 hj).2]; exact Nat.lt_succ_self k

theorem holds_fits (rm : Machine Record) : ∀ (rs : List rm.σ) (xss : List (List Bytes)),
    Holds rm rs (xss.map fun xs => xs.map fun b => ⟨0, b⟩) →
    rs.length = xss.length ∧ FitsAll rm (rs.map fun r => .ok (some r)) (rowContents xss) := by
  intro rs
  induction rs with
  | nil =>
    intro xss h
    cases xss with
    | nil => exact ⟨rfl, Or.inl rfl, fun i o c h1 => by simp at h1⟩
    | cons xs xss => exact h.elim
  | cons r rs ih =>
    intro xss h
    cases xss with
    | nil => exact h.elim
    | cons xs xss =>
      obtain ⟨h1, h2, h3⟩ := ih xss h.2
      refine ⟨by simp [h1], Or.inl (by simp [rowContents, h1]), ?_⟩
      intro i o c ho hc
      cases i with
      | zero =>
        simp only [List.map_cons, rowContents, List.getElem?_cons_zero, Option.some.injEq] at ho hc
        subst ho hc
        exact h.1
      | succ i =>
        simp only [List.map_cons, rowContents, List.getElem?_cons_succ] at ho hc
        exact h3 i o c ho hc

/-- Stores of rows give exactly the instances that are their rows. -/
theorem core_rows (rm : Machine Record) (rs : List rm.σ) (xss : List (List Bytes))
    (h : Holds rm rs (xss.map fun xs => xs.map fun b => ⟨0, b⟩)) (fuel : Nat) (hf : xss.flatten.length < fuel) :
    (coreReader rm (rs.map fun r => .ok (some r)) fuel).Yields
      (coreReader rm (rs.map fun r => .ok (some r)) fuel).init (rowInstances xss) (.ok none) := by
  obtain ⟨_, hfit⟩ := holds_fits rm rs xss h
  obtain ⟨h1, h2, h3⟩ := rowContents_items xss 0
  have := C04_split_records_partial rm _ _ hfit fuel (by rw [h2]; exact hf) (rowItems 0 xss) .eof (by rw [h1]; exact h3)
    (by simp)
  rw [number_rows xss 0 [] (by simp)] at this
  exact this

/-! ## Selection and batching look at positions only -/

theorem range_map {α β : Type} (f : α → β) (skip num) (xs : List α) :
    range skip num (xs.map f) = (range skip num xs).map f := by
  unfold range
  cases num <;> simp [List.map_drop, List.map_take]

theorem shard_map {α β : Type} (f : α → β) (n k : Nat) (xs : List α) : shard n k (xs.map f) = (shard n k xs).map f := by
  unfold shard
  rw [List.zipIdx_map, List.filter_map, List.map_map, List.map_map]
  rfl

theorem blocks_map {α β : Type} (f : α → β) (n : Nat) (xs : List α) : blocks n (xs.map f) = (blocks n xs).map (·.map f) := by
  unfold blocks
  rw [List.length_map, List.map_map]
  apply List.map_congr_left
  intro i _
  simp [List.map_drop, List.map_take]

theorem sample_map {α β : Type} (f : α → β) (keep) (xs : List α) : sample keep (xs.map f) = (sample keep xs).map f := by
  unfold sample
  rw [blocks_map, List.flatMap_map, List.map_flatMap]
  congr 1
  funext b
  rw [List.length_map, List.map_take]

theorem selected_map {α β : Type} (f : α → β) (o : ReadOptions) (xs : List α) :
    selected o (xs.map f) = (selected o xs).map f := by
  unfold selected
  simp only [range_map]
  split <;> (split <;> simp only [shard_map, sample_map])

/-- A batch of something else. -/
def Batch.map {α β : Type} (f : α → β) (b : Batch α) : Batch β := ⟨b.index, b.instances.map f, b.size⟩

theorem batches_map {α β : Type} (f : α → β) (b : Nat) (l : LastHandling) (xs : List α) :
    batches b l (xs.map f) = (batches b l xs).map (Batch.map f) := by
  unfold batches batchesFrom
  rw [blocks_map, List.zipIdx_map, List.filter_map, List.map_map, List.map_map]
  have : ((fun p : List β × Nat => decide (p.1.length = b ∨ ¬ dropsShort l = true)) ∘ Prod.map (List.map f) id) =
      (fun p : List α × Nat => decide (p.1.length = b ∨ ¬ dropsShort l = true)) := by
    funext p
    simp
  rw [this]
  apply List.map_congr_left
  intro p _
  simp [Batch.map]

theorem zipIdx_map_fst' {α : Type} (xs : List α) (k : Nat) : (xs.zipIdx k).map (·.1) = xs := by
  induction xs generalizing k with
  | nil => rfl
  | cons x xs ih => simp [List.zipIdx_cons, ih]

theorem rowInstances_bits (xss : List (List Bytes)) :
    (rowInstances xss).map (fun i => i.bits.getD []) = xss.flatten := by
  have key : ∀ (xss : List (List Bytes)) (k : Nat),
      ((xss.zipIdx k).flatMap fun p => p.1.zipIdx.map fun q => (⟨p.2, q.2, some q.1⟩ : Inst)).map
        (fun i => i.bits.getD []) = xss.flatten := by
    intro xss
    induction xss with
    | nil => intro k; rfl
    | cons xs xss ih =>
      intro k
      simp only [List.zipIdx_cons, List.flatMap_cons, List.map_append, List.map_map, List.flatten_cons, ih]
      congr 1
      exact zipIdx_map_fst' xs _
  exact key xss 0

theorem rowInstances_length (xss : List (List Bytes)) : (rowInstances xss).length = xss.flatten.length := by
  rw [← rowInstances_bits xss, List.length_map]

theorem window_map {α β : Type} (f : α → β) (w : Nat) (xs ys : List α) (h : WindowShuffle w xs ys) :
    WindowShuffle w (xs.map f) (ys.map f) := by
  obtain ⟨idx, h1, h2, h3⟩ := h
  refine ⟨idx, by rw [List.length_map]; exact h1, ?_, h3⟩
  have := congrArg (List.map (Option.map f)) h2
  simp only [List.map_map] at this
  rw [List.map_map]
  refine Eq.trans ?_ (Eq.trans this ?_)
  · rfl
  · apply List.map_congr_left
    intro i _
    simp

theorem epochOrder_map {α β : Type} (f : α → β) (o : ReadOptions) (xs ys : List α) (h : EpochOrder o xs ys) :
    EpochOrder o (xs.map f) (ys.map f) := by
  unfold EpochOrder at h ⊢
  split at h
  · rw [h]
  · rw [List.length_map]
    exact ⟨h.1.map f, window_map f _ _ _ h.2⟩

/-! ## Every epoch of a dataset, through the parallel pipeline -/

theorem make_split {α : Type} (R : Rng) (o : ReadOptions) (core r : Machine α) (h : makeInstanceReader R o core = some r) :
    ∃ inner, makeInstanceReader R { o with shuffle := none } core = some inner ∧
      (match o.shuffle with
        | none => r = inner
        | some p => r = (shuffled R p inner).base) := by
  unfold makeInstanceReader at h ⊢
  simp only at h ⊢
  split at h
  · cases h
  · next hn =>
    rw [if_neg hn]
    cases hq : o.sampleRatio with
    | none =>
      simp only [hq] at h ⊢
      cases hsh : o.shuffle with
      | none => simp only [hsh] at h; exact ⟨_, rfl, (Option.some.inj h).symm⟩
      | some p => simp only [hsh] at h; exact ⟨_, rfl, (Option.some.inj h).symm⟩
    | some q =>
      simp only [hq] at h ⊢
      by_cases hok : q.ok = true
      · simp only [if_pos hok] at h ⊢
        cases hsh : o.shuffle with
        | none => simp only [hsh] at h; exact ⟨_, rfl, (Option.some.inj h).symm⟩
        | some p => simp only [hsh] at h; exact ⟨_, rfl, (Option.some.inj h).symm⟩
      · rw [if_neg hok] at h; cases h

theorem selected_noshuffle {α : Type} (o : ReadOptions) (xs : List α) :
    selected { o with shuffle := none } xs = selected o xs := rfl

theorem selected_length_le {α : Type} (o : ReadOptions) (xs : List α) : (selected o xs).length ≤ xs.length := by
  have hsh : ∀ (n k : Nat) (ys : List α), (shard n k ys).length ≤ ys.length := by
    intro n k ys
    unfold shard
    rw [List.length_map]
    exact Nat.le_trans (List.length_filter_le _ _) (by simp)
  have hsa : ∀ (keep : Nat → Nat) (ys : List α), (sample keep ys).length ≤ ys.length := by
    intro keep ys
    have h1 := flatten_blocks 100 (by decide) ys.length ys (Nat.le_refl _)
    unfold sample
    have key : ∀ bs : List (List α), (bs.flatMap fun b => b.take (keep b.length)).length ≤ bs.flatten.length := by
      intro bs
      induction bs with
      | nil => simp
      | cons b bs ih =>
        simp only [List.flatMap_cons, List.flatten_cons, List.length_append, List.length_take]
        omega
    have := key (blocks 100 ys)
    rwa [h1] at this
  have hra : (range o.toSkip o.toRead xs).length ≤ xs.length := by
    unfold range
    split <;> simp <;> omega
  unfold selected
  simp only
  have h2 : (if o.numShards > 1 then shard o.numShards o.shardIndex (range o.toSkip o.toRead xs)
      else range o.toSkip o.toRead xs).length ≤ xs.length := by
    split
    · exact Nat.le_trans (hsh _ _ _) hra
    · exact hra
  split
  · exact Nat.le_trans (hsa _ _) h2
  · exact h2

theorem start_cases {α ε : Type} {m : Machine (Batch α)} {P Q : Nat} {dec : Batch α → Except Err (Option ε)}
    {s : PState m ε} (hr : Reachable P Q dec s) : s.start = m.init ∨ ∃ u, s.start = m.reset u := by
  obtain ⟨as, hr⟩ := hr
  have key : ∀ (as : List PAct) (s0 : PState m ε), (s0.start = m.init ∨ ∃ u, s0.start = m.reset u) →
      prun P Q dec as s0 = some s → s.start = m.init ∨ ∃ u, s.start = m.reset u := by
    intro as
    induction as with
    | nil => intro s0 h0 h; simp [prun] at h; subst h; exact h0
    | cons a as ih =>
      intro s0 h0 h
      simp only [prun] at h
      cases hs : pstep P Q dec a s0 with
      | none => rw [hs] at h; simp at h
      | some s1 =>
        rw [hs] at h
        refine ih s1 ?_ h
        rcases start_eq hs with h1 | ⟨_, u, h1⟩
        · rw [h1]; exact h0
        · exact Or.inr ⟨u, h1⟩
  exact key as _ (Or.inl rfl) hr

/-- Every epoch of the machine has the same elements. -/
structure Machine.Renews {α : Type} (m : Machine α) (xs : List α) : Prop where
  first : m.Yields m.init xs (.ok none)
  again : ∀ s, m.Yields (m.reset s) xs (.ok none)

theorem renews_of_resets {α : Type} {m : Machine α} {xs : List α} (h : m.Resets) (hy : m.Yields m.init xs (.ok none)) :
    m.Renews xs := ⟨hy, fun s => by rw [h s]; exact hy⟩

theorem make_renews {α : Type} (R : Rng) (o : ReadOptions) (core r : Machine α) (xs : List α) (hc : core.Renews xs)
    (hs : o.shuffle = none) (hm : makeInstanceReader R o core = some r) : r.Renews (selected o xs) := by
  have y0 : core.base.Renews xs :=
    ⟨Machine.base_yields hc.first, fun s => Machine.base_yields (hc.again s.1)⟩
  have y1 : (if o.toSkip > 0 ∨ o.toRead.isSome then (ranged o.toSkip o.toRead core.base).base else core.base).Renews
      (range o.toSkip o.toRead xs) := by
    by_cases hr : o.toSkip > 0 ∨ o.toRead.isSome
    · rw [if_pos hr]
      exact ⟨Machine.base_yields (Machine.ranged_yields _ _ y0.first),
        fun s => Machine.base_yields (Machine.ranged_yields _ _ (y0.again s.1.inner))⟩
    · rw [if_neg hr]
      have hx : range o.toSkip o.toRead xs = xs := by
        have e1 : o.toSkip = 0 := by omega
        have e2 : o.toRead = none := by
          cases hn : o.toRead with
          | none => rfl
          | some n => simp [hn] at hr
        simp [range, e1, e2]
      rw [hx]
      exact y0
  unfold makeInstanceReader at hm
  simp only at hm
  unfold selected
  simp only
  generalize (if o.toSkip > 0 ∨ o.toRead.isSome then (ranged o.toSkip o.toRead core.base).base else core.base) = r1 at *
  split at hm
  · cases hm
  · next hn =>
    have y2 : (if o.numShards > 1 then (sharded o.numShards o.shardIndex r1).base else r1).Renews
        (if o.numShards > 1 then shard o.numShards o.shardIndex (range o.toSkip o.toRead xs)
          else range o.toSkip o.toRead xs) := by
      by_cases hc : o.numShards > 1
      · rw [if_pos hc, if_pos hc]
        exact ⟨Machine.base_yields (Machine.sharded_yields _ _ (by omega) (by simp) y1.first),
          fun s => Machine.base_yields (Machine.sharded_yields _ _ (by omega) (by simp) (y1.again s.1.1))⟩
      · rw [if_neg hc, if_neg hc]
        exact y1
    generalize (if o.numShards > 1 then (sharded o.numShards o.shardIndex r1).base else r1) = r2 at *
    cases hq : o.sampleRatio with
    | none =>
      simp only [hq, hs, Option.some.injEq] at hm
      subst hm
      exact y2
    | some q =>
      simp only [hq, hs] at hm
      split at hm
      · next hk =>
        cases hm
        exact ⟨Machine.base_yields (Machine.sampled_yields q hk y2.first),
          fun s => Machine.base_yields (Machine.sampled_yields q hk (y2.again s.1.inner))⟩
      · cases hm

/-- The instances of an epoch. -/
theorem epoch_yields {α : Type} (R : Rng) (hR : R.Lawful) (o : ReadOptions) (core : Machine α)
    (xs : List α) (hc : core.Renews xs) (hlen : xs.length < 2 ^ 64 - 1)
    (r : Machine α) (hm : makeInstanceReader R o core = some r) (u : r.σ) (hu : u = r.init ∨ ∃ v, u = r.reset v) :
    ∃ ys, EpochOrder o (selected o xs) ys ∧ r.Yields u ys (.ok none) := by
  obtain ⟨inner, hi, hr0⟩ := make_split R o core r hm
  have hren : inner.Renews (selected o xs) :=
    make_renews R { o with shuffle := none } core inner xs hc rfl hi
  have hsl := selected_length_le o xs
  unfold EpochOrder
  cases hsh : o.shuffle with
  | none =>
    rw [hsh] at hr0
    simp only at hr0
    subst hr0
    refine ⟨_, rfl, ?_⟩
    rcases hu with rfl | ⟨v, rfl⟩
    · exact hren.first
    · exact hren.again v
  | some p =>
    rw [hsh] at hr0
    simp only at hr0
    subst hr0
    have perm : ∀ ys, WindowShuffle p.effWindow (selected o xs) ys →
        ys.Perm (selected o xs) ∧ WindowShuffle (if p.window = 0 then (selected o xs).length else p.window) (selected o xs) ys := by
      rintro ys ⟨idx, i1, i2, i3⟩
      refine ⟨?_, idx, i1, i2, ?_⟩
      · have hp : (ys.map some).Perm ((selected o xs).map some) := by
          rw [i2]
          refine (i1.map _).trans ?_
          have : (List.range (selected o xs).length).map (fun i => (selected o xs)[i]?) = (selected o xs).map some := by
            apply List.ext_getElem?
            intro i
            simp only [List.getElem?_map]
            by_cases hi : i < (selected o xs).length
            · simp [hi]
            · simp [hi]
          rw [this]
        have := hp.filterMap id
        simpa [List.filterMap_map] using this
      · intro k i hk
        split
        · have : i ∈ List.range (selected o xs).length := i1.mem_iff.1 (List.mem_of_getElem? hk)
          simp at this
          omega
        · next hw =>
          have := i3 k i hk
          simpa [ShuffleParams.effWindow, hw] using this
    rcases hu with rfl | ⟨v, rfl⟩
    · obtain ⟨ys, h1, h2, _⟩ := Machine.shuffled_yields R hR p (R.seed p.seed) hren.first (fun _ => by omega)
      exact ⟨ys, perm ys h2, Machine.base_yields h1⟩
    · obtain ⟨ys, h1, h2, _⟩ := Machine.shuffled_yields R hR p (if p.reshuffle then v.1.rng else R.seed p.seed)
        (hren.again v.1.inner) (fun _ => by omega)
      exact ⟨ys, perm ys h2, Machine.base_yields h1⟩

/-- Every epoch, first or after any number of resets, shuffled or not, under every schedule. -/
theorem dataset_epochs {α ε : Type} (R : Rng) (hR : R.Lawful) (o : ReadOptions) (core : Machine α)
    (xs : List α) (hc : core.Renews xs) (hlen : xs.length < 2 ^ 64 - 1)
    (b : Nat) (hb : 0 < b) (l : LastHandling) (hl : l ≠ .padWarn)
    (r : Machine α) (hm : makeInstanceReader R o core = some r)
    (P Q : Nat) (hP : 0 < P) (dec : Batch α → Except Err (Option ε))
    (s : PState (batched b l r) ε) (hr : Reachable P Q dec s) :
    ∃ ys, EpochOrder o (selected o xs) ys ∧
      delivered s.out <+: examples dec (batches b l ys) ∧
      (.ok none ∈ s.out → delivered s.out = examples dec (batches b l ys) ∧ ∀ q ∈ batches b l ys, ∃ x, dec q = .ok x) ∧
      (∀ e, .err e ∈ s.out → ∃ q ∈ batches b l ys, dec q = .error e) ∧
      (∀ w, .ub w ∉ s.out) := by
  have epoch := epoch_yields R hR o core xs hc hlen r hm
  have source : ∀ u : (batched b l r).σ, (u = (batched b l r).init ∨ ∃ v, u = (batched b l r).reset v) →
      ∃ ys, EpochOrder o (selected o xs) ys ∧ Source (batched b l r) u (batches b l ys) (.ok none) := by
    intro u hu
    have hz : u.2 = 0 := by rcases hu with rfl | ⟨v, rfl⟩ <;> rfl
    obtain ⟨ys, h1, h2⟩ := epoch u.1 (by
      rcases hu with rfl | ⟨v, rfl⟩
      · exact Or.inl rfl
      · exact Or.inr ⟨v.1, rfl⟩)
    refine ⟨ys, h1, ?_, fun i q hq => ((C24_batches_meaning b hb l ys).2 i q hq).1, Or.inl rfl⟩
    have := (Machine.batched_yields (m := r) b hb l hl h2).readsTo
    rw [show u = (u.1, 0) from Prod.ext rfl hz]
    exact this
  have hs : Sources (batched b l r) := by
    refine ⟨?_, fun u => ?_⟩
    · obtain ⟨ys, _, h⟩ := source _ (Or.inl rfl); exact ⟨_, _, h⟩
    · obtain ⟨ys, _, h⟩ := source _ (Or.inr ⟨u, rfl⟩); exact ⟨_, _, h⟩
  obtain ⟨bs, t, h1, h2, ⟨n, ot, h3, h4⟩, h5, h6⟩ := C25_order (dec := dec) hP hs s hr
  obtain ⟨ys, ho, hsrc⟩ := source s.start (start_cases hr)
  obtain ⟨rfl, rfl⟩ := reads_unique hsrc.tail_ne h1.tail_ne hsrc.reads h1.reads
  refine ⟨ys, ho, h2, fun hx => ⟨(h5 hx).1, (h5 hx).2.1⟩, fun e he => ?_, fun w hw => ?_⟩
  · rcases h6 e he with h | ⟨q, hq, h⟩
    · cases h
    · exact ⟨q, hq, h⟩
  · rw [h3] at hw
    rcases List.mem_append.1 hw with hw | hw
    · obtain ⟨x, _, hx⟩ := List.mem_map.1 hw
      cases hx
    · have := (List.mem_replicate.1 hw).2
      rcases h4 with h4 | ⟨e, h4⟩ <;> (rw [h4] at this; cases this)

/-! ## Decoding lines -/

theorem writeRows_spec (is : List Inst) : ∀ (done : List Bytes) (k : Nat), is.length ≤ k →
    writeRows (done ++ List.replicate k []) done.length is =
      .ok (done ++ is.map (fun i => i.bits.getD []) ++ List.replicate (k - is.length) []) := by
  induction is with
  | nil => intro done k _; simp [writeRows]
  | cons i is ih =>
    intro done k hk
    cases k with
    | zero => simp at hk
    | succ k =>
      unfold writeRows
      rw [if_pos (by simp)]
      have hset : (done ++ List.replicate (k + 1) ([] : Bytes)).set done.length (i.bits.getD []) =
          (done ++ [i.bits.getD []]) ++ List.replicate k [] := by
        rw [List.replicate_succ, List.set_append_right _ _ (Nat.le_refl _)]
        simp
      rw [hset]
      have := ih (done ++ [i.bits.getD []]) k (by simpa using hk)
      rw [List.length_append] at this
      simp only [List.length_cons, List.length_nil, Nat.zero_add] at this
      rw [this]
      simp

theorem decodeLines_spec (b : Batch Inst) (h : b.instances.length ≤ b.size) :
    decodeLines b = .ok (lineExample (b.map fun i => i.bits.getD [])) := by
  have := writeRows_spec b.instances [] b.size h
  simp only [List.nil_append, List.length_nil] at this
  simp only [decodeLines, this, lineExample, Batch.map, List.length_map]

theorem batches_fit {α : Type} (b : Nat) (hb : 0 < b) (l : LastHandling) (xs : List α) :
    ∀ q ∈ batches b l xs, q.instances.length ≤ q.size ∧ q.instances.length ≤ b := by
  intro q hq
  unfold batches batchesFrom at hq
  obtain ⟨p, hp, rfl⟩ := List.mem_map.1 hq
  have hp := (List.mem_filter.1 hp).1
  obtain ⟨hm⟩ : p.1 ∈ blocks b xs ∧ True := ⟨by
    obtain ⟨x, i⟩ := p
    exact (List.mem_zipIdx' hp).2 ▸ List.getElem_mem _, trivial⟩
  have hle : p.1.length ≤ b := by
    unfold blocks at hm
    obtain ⟨i, _, hi⟩ := List.mem_map.1 hm
    rw [← hi, List.length_take]
    omega
  refine ⟨?_, hle⟩
  simp only
  split
  · exact hle
  · exact Nat.le_refl _

theorem textLineDecode_ok (q : Batch Inst) (h : q.instances.length ≤ q.size) :
    textLineDecode q = .ok (some (lineExample (q.map fun i => i.bits.getD []))) := by
  simp only [textLineDecode, toDecode, decodeLines_spec q h]

theorem length_le_sum (x : Nat) (xs : List Nat) (h : x ∈ xs) : x ≤ xs.sum := by
  induction xs with
  | nil => cases h
  | cons y ys ih =>
    rw [List.sum_cons]
    rcases List.mem_cons.1 h with rfl | h
    · omega
    · have := ih h; omega

theorem examples_lines (b : Nat) (hb : 0 < b) (l : LastHandling) (is : List Inst) :
    examples textLineDecode (batches b l is) =
      (batches b l (is.map fun i => i.bits.getD [])).map lineExample := by
  rw [batches_map, List.map_map]
  have key : ∀ qs : List (Batch Inst), (∀ q ∈ qs, q.instances.length ≤ q.size) →
      examples textLineDecode qs = qs.map (lineExample ∘ Batch.map fun i => i.bits.getD []) := by
    intro qs
    induction qs with
    | nil => intro _; rfl
    | cons q qs ih =>
      intro h
      have hd := textLineDecode_ok q (h q (List.mem_cons_self ..))
      simp only [examples, hd, List.map_cons, Function.comp_apply]
      rw [ih (fun r hr => h r (List.mem_cons_of_mem _ hr))]
  exact key _ (fun q hq => (batches_fit b hb l is q hq).1)

/-! ## Data stores with text -/

theorem utf8Mark_hasMark {x : Bytes} (h : utf8Bom <+: x) : HasMark x "UTF-8" := .utf8 x h

theorem crlf_bom {p : CsvParams} {x : Bytes} (h : CrlfOk p x) : CrlfOk p (utf8Bom ++ x) := by
  rcases h with h | h
  rotate_left
  · exact Or.inr h
  left
  rintro ⟨a, b, hab⟩
  apply h
  simp only [utf8Bom, List.cons_append, List.nil_append] at hab
  match a with
  | [] => simp at hab; exact absurd hab.1 (by decide)
  | [_] => simp at hab; exact absurd hab.2.1 (by decide)
  | [_, _] => simp at hab; exact absurd hab.2.2.1 (by decide)
  | _ :: _ :: _ :: a =>
    simp at hab
    exact ⟨a, b, by simp [hab.2.2.2]⟩

theorem makeUtf8_unmarked (codec : String → Codec) (all : Bytes) (sched : List Nat) (h : ∀ name, ¬ HasMark all name) :
    ∃ s, makeUtf8Stream codec utf8BufferSize all true sched none = .ok (.same s) := by
  obtain ⟨s', h1, _⟩ := fillBuffer_take all sched 4
  have hb : inferBom (all.take 4) = none := by
    rcases hb : inferBom (all.take 4) with _ | name
    · rfl
    · exact absurd ((inferBom_iff all name).1 hb) (h name)
  simp only [makeUtf8Stream, h1, hb, if_true]
  exact ⟨_, rfl⟩

theorem unicode_stored (cs : List Char) (seekable : Bool) (sched : List Nat) (be wide : Bool)
    (hs : seekable = true ∨
      4 < ((Char.ofNat 0xFEFF :: cs).flatMap (if wide then encode32 be else encode16 be)).length)
    (h0 : wide = false → be = false → (cs.flatMap encode8).head? ≠ some 0) :
    ∃ t, makeUtf8Stream unicodeCodec utf8BufferSize
        ((Char.ofNat 0xFEFF :: cs).flatMap (if wide then encode32 be else encode16 be)) seekable sched none = .ok t ∧
      (∀ ns, TextReads false (utf8Bom ++ cs.flatMap encode8) ns (t.reads ns)) ∧ ∀ s, t ≠ .same s := by
  have h0' : wide = false → be = false → cs.head? ≠ some (Char.ofNat 0) := by
    intro a b hc
    apply h0 a b
    cases cs with
    | nil => cases hc
    | cons c cs =>
      simp only [List.head?_cons, Option.some.injEq] at hc
      subst hc
      rfl
  obtain ⟨t, h1, h2⟩ := C46_unicode_partial cs seekable sched be wide hs h0'
  refine ⟨t, h1, h2, fun s ht => ?_⟩
  obtain ⟨t', g1, g2⟩ := C46_detect unicodeCodec
    ((Char.ofNat 0xFEFF :: cs).flatMap (if wide then encode32 be else encode16 be)) seekable sched
  rw [h1] at g1
  cases g1
  obtain ⟨u, hu, _⟩ := (g2 _).1 (unicode_hasMark cs be wide h0')
  rw [ht] at hu
  cases hu

/-- `stored_rows` with more. -/
theorem stored_backed {m : SrcClass} {safe : Prop} {enc : Encoding} {text : Bytes} {f : StoreFile m} (h : Stored safe enc text f)
    (p : CsvParams) (hsafe : safe → CrlfOk p text)
    (hb : MarkFree p text) {rows : List Bytes} (hr : RowsOf p text rows) (fuel : Nat) (hf : text.length + 5 ≤ fuel)
    (hf2 : f.bytes.length + 2 ≤ fuel) :
    ∃ r, openLines unicodeCodec m fuel none f.stream = .ok r ∧
      (lineMachine unicodeCodec m (csvDecode p) fuel).Yields r (rows.map fun b => ⟨0, b⟩) (.ok none) ∧
      Backed unicodeCodec m fuel (max (2 ^ 31) (2 * (text.length + 3))) none f.stream := by
  obtain ⟨hsrc, he, hz, hl, hn, hfit⟩ := h
  have crlf : safe ∨ ¬ [13, 10] <:+: text → CrlfOk p text := fun h => h.elim hsafe Or.inl
  -- everything that is not plain UTF-8 has the mark in front
  have marked : enc ≠ .utf8 → (utf8Bom ++ text).length < chunkSize ∨ CsvGood p (utf8Bom ++ text) := by
    intro hne
    rcases hfit with h | h | h
    · exact absurd h.2 hne
    · left
      simp [utf8Bom]
      omega
    · right
      exact ⟨crlf_bom (crlf h), Or.inr ⟨text, rfl, hb⟩⟩
  have wide : ∀ wide be (cs : List Char), enc ≠ .utf8 → enc ≠ .utf8Mark →
      text = cs.flatMap encode8 → f.bytes = (Char.ofNat 0xFEFF :: cs).flatMap (if wide then encode32 be else encode16 be) →
      (wide = false → be = false → text.head? ≠ some 0) →
      ∃ r, openLines unicodeCodec m fuel none f.stream = .ok r ∧
        (lineMachine unicodeCodec m (csvDecode p) fuel).Yields r (rows.map fun b => ⟨0, b⟩) (.ok none) ∧
      Backed unicodeCodec m fuel (max (2 ^ 31) (2 * (text.length + 3))) none f.stream := by
    intro wide be cs h1 h2 ht hfb h0
    refine openLines_backed unicodeCodec p none f (utf8Bom ++ text) rows _ (Nat.le_max_left _ _)
      (by simp only [List.length_append, utf8Bom, List.length_cons, List.length_nil]; omega) hsrc (fun sched => ?_)
      (rowsOf_bom hb.start hr) fuel (by simp [utf8Bom]; omega) hf2
    obtain ⟨t, g1, g2, g3⟩ := unicode_stored cs f.seekable sched be wide (by rw [← hfb]; exact hl h1 h2)
      (by rw [← ht]; exact h0)
    rw [← hfb] at g1
    rw [← ht] at g2
    exact ⟨t, g1, g2, fun s hs => absurd hs (g3 s), Or.inr (marked h1)⟩
  cases enc with
  | utf8 =>
    obtain ⟨e1, e2⟩ := he
    refine openLines_backed unicodeCodec p none f text rows _ (Nat.le_max_left _ _) (by omega) hsrc (fun sched => ?_) hr fuel
      (by omega) hf2
    obtain ⟨t, g1, g2⟩ := C46_utf8 unicodeCodec f.bytes f.seekable sched none
      (Or.inr (Or.inr ⟨rfl, fun name hm => absurd hm (e2 name)⟩))
    refine ⟨t, g1, by rw [← e1]; exact g2, fun _ _ => e1.symm, ?_⟩
    rcases hfit with h | h | h
    · left
      refine ⟨h.1, ?_⟩
      obtain ⟨s, hs⟩ := makeUtf8_unmarked unicodeCodec f.bytes sched e2
      rw [hz h.1, hs] at g1
      exact ⟨s, (Res.ok.inj g1).symm⟩
    · exact Or.inr (Or.inl (by omega))
    · exact Or.inr (Or.inr ⟨crlf h, Or.inl hb⟩)
  | utf8Mark =>
    have he : f.bytes = utf8Bom ++ text := he
    refine openLines_backed unicodeCodec p none f (utf8Bom ++ text) rows _ (Nat.le_max_left _ _)
      (by simp only [List.length_append, utf8Bom, List.length_cons, List.length_nil]; omega) hsrc (fun sched => ?_)
      (rowsOf_bom hb.start hr) fuel (by simp [utf8Bom]; omega) hf2
    obtain ⟨t, g1, g2⟩ := C46_utf8 unicodeCodec f.bytes f.seekable sched none (Or.inr (Or.inr ⟨rfl, fun name hm => by
      have h8 : HasMark f.bytes "UTF-8" := utf8Mark_hasMark (by rw [he]; exact List.prefix_append _ _)
      have a := (inferBom_iff f.bytes name).2 hm
      rw [(inferBom_iff f.bytes "UTF-8").2 h8] at a
      exact (Option.some.inj a).symm⟩))
    exact ⟨t, g1, by rw [← he]; exact g2, fun _ _ => he.symm, Or.inr (marked (by simp))⟩
  | utf16 be =>
    obtain ⟨cs, c1, c2⟩ := he
    exact wide false be cs (by simp) (by simp) c1 c2 (fun _ hbe => hn (by rw [hbe]))
  | utf32 be =>
    obtain ⟨cs, c1, c2⟩ := he
    exact wide true be cs (by simp) (by simp) c1 c2 (by simp)

/-- A data store with text, opened by a text reader, holds exactly the rows of the text. -/
theorem stored_rows {m : SrcClass} {safe : Prop} {enc : Encoding} {text : Bytes} {f : StoreFile m} (h : Stored safe enc text f)
    (p : CsvParams) (hsafe : safe → CrlfOk p text)
    (hb : MarkFree p text) {rows : List Bytes} (hr : RowsOf p text rows) (fuel : Nat) (hf : text.length + 5 ≤ fuel)
    (hf2 : f.bytes.length + 2 ≤ fuel) :
    ∃ r, openLines unicodeCodec m fuel none f.stream = .ok r ∧
      (lineMachine unicodeCodec m (csvDecode p) fuel).Yields r (rows.map fun b => ⟨0, b⟩) (.ok none) := by
  obtain ⟨r, h1, h2, _⟩ := stored_backed h p hsafe hb hr fuel hf hf2
  exact ⟨r, h1, h2⟩

theorem text_rowsOf (t : Text) (hv : t.Valid) (hb : ∀ l ∈ t.content, ¬ utf8Bom <+: l) :
    RowsOf (textParams false) t.bytes t.content := by
  apply rowsOf_of
  intro k
  have hl := linesOk_plain (textParams false) rfl rfl (by simp [textParams]) t hv hb
  have := csv_lines (textParams false) t hl k
  have hf : t.content.filter (isRow (textParams false).comment (textParams false).skipBlank) = t.content := by
    apply List.filter_eq_self.2
    intro l _
    simp [isRow, textParams]
  rwa [hf] at this

/-- Stores that hold rows, opened. -/
theorem stores_hold {m : SrcClass} (p : CsvParams) (fuel : Nat) (fs : List (m.σ × List Bytes))
    (h : ∀ f ∈ fs, ∃ r, openLines unicodeCodec m fuel none f.1 = .ok r ∧
      (lineMachine unicodeCodec m (csvDecode p) fuel).Yields r (f.2.map fun b => ⟨0, b⟩) (.ok none)) :
    ∃ rs : List (LineReader unicodeCodec m fuel),
      (fs.map Prod.fst).map (lineStore unicodeCodec m fuel none) = rs.map (fun r => .ok (some r)) ∧
      Holds (lineMachine unicodeCodec m (csvDecode p) fuel) rs ((fs.map Prod.snd).map fun xs => xs.map fun b => ⟨0, b⟩) := by
  induction fs with
  | nil => exact ⟨[], rfl, trivial⟩
  | cons f fs ih =>
    obtain ⟨r, h1, h2⟩ := h f (by simp)
    obtain ⟨rs, h3, h4⟩ := ih (fun f hf => h f (by simp [hf]))
    refine ⟨r :: rs, ?_, h2, h4⟩
    simp only [List.map_cons, h3, lineStore, h1]

end Mlio
