import Verif.Proofs.Batching
import Verif.Proofs.CoreReader
import Verif.Proofs.RecordIO
import Verif.Proofs.Parquet

/-! # C04, C16 - C24: instance readers and batches -/

namespace Mlio
open Spec Machine

/-- A dataset held in a list; used for examples only. -/
def listMachine {α : Type} (xs : List α) : Machine α where
  σ := List α
  init := xs
  read := fun s => match s with | [] => (.ok none, []) | x :: s => (.ok (some x), s)
  reset := fun _ => xs

theorem listMachine_yields {α : Type} (xs ys : List α) : (listMachine xs).Yields ys ys (.ok none) := by
  refine yields_of (m := listMachine xs) (fun s ys => s = ys) (.ok none) ?_ ?_ ys ys rfl
  · rintro s x xs rfl; exact ⟨rfl, rfl⟩
  · rintro s rfl; exact ⟨rfl, rfl⟩

/-! ## C04 -/

/-- **C04**, all datasets except those that end inside a split record.  `cs` describes what the stores of
the dataset hold; `Assembles` says which instances these are: complete records, split records put
together, whole stores.  The reader returns exactly these, numbered within their store, and then for
ever the end of data, or the data reader error for a wrong arrangement of parts, or the read
error.  What is missing: see `C04_truncated_violated`. -/
theorem C04_split_records_partial (rm : Machine Record) (stores : List (Res (Option rm.σ))) (cs : List Content)
    (hf : FitsAll rm stores cs) (fuel : Nat) (hfuel : (items 0 cs).1.length < fuel)
    (is : List (Nat × Option Bytes)) (e : End)
    (ha : Assembles (items 0 cs).2 (items 0 cs).1 is e) (hcut : e ≠ .cutSplit) :
    (coreReader rm stores fuel).Yields (coreReader rm stores fuel).init (number [] is)
      (match e with
        | .eof => .ok none
        | .fail e => if e.translated then .err .dataReader else .err e
        | .corruptSplit => .err .dataReader
        | .cutSplit => .ok none) := by
  have h := core_yields hf ha hfuel [] .fresh (by simp [Left, CoreState.fresh, Past])
    ⟨by simp, by simp [CoreState.fresh]⟩ rfl
  cases e <;> first | exact h | exact absurd rfl hcut

/-- **C04**: the description covers every dataset. -/
theorem C04_every_dataset (cs : List Content) :
    ∃ is e, Assembles (items 0 cs).2 (items 0 cs).1 is e :=
  assembles_exists _ _ _ (Nat.le_refl _)

/-- **C04** is false of the code for a dataset that ends inside a split record: reporting the error
dereferences the null data store pointer, at every read. -/
theorem C04_truncated_violated (rm : Machine Record) (stores : List (Res (Option rm.σ))) (cs : List Content)
    (hf : FitsAll rm stores cs) (fuel : Nat) (hfuel : (items 0 cs).1.length < fuel)
    (is : List (Nat × Option Bytes)) (ha : Assembles (items 0 cs).2 (items 0 cs).1 is .cutSplit) :
    (coreReader rm stores fuel).Yields (coreReader rm stores fuel).init (number [] is) (.ub "null data store") :=
  core_yields hf ha hfuel [] .fresh (by simp [Left, CoreState.fresh, Past])
    ⟨by simp, by simp [CoreState.fresh]⟩ rfl

-- The smallest such dataset: one store with one begin part.
example : (coreReader (listMachine []) [.ok (some [⟨1, [7]⟩])] 5).outs 2 .fresh =
    [.ub "null data store", .ub "null data store"] := by decide

-- Three stores; the second record of the first one is split over all three.
example : (coreReader (listMachine []) [.ok (some [⟨0, [1]⟩, ⟨1, [2]⟩]), .ok (some [⟨2, [3, 4]⟩]),
      .ok (some [⟨3, [5]⟩, ⟨0, [6]⟩])] 9).outs 4 .fresh =
    [.ok (some ⟨0, 0, some [1]⟩), .ok (some ⟨2, 0, some [2, 3, 4, 5]⟩), .ok (some ⟨2, 1, some [6]⟩),
      .ok none] := by decide

-- This dataset meets the hypotheses of the theorem.
example : FitsAll (listMachine []) [.ok (some [⟨0, [1]⟩, ⟨1, [2]⟩]), .ok (some [⟨2, [3, 4]⟩]),
      .ok (some [⟨3, [5]⟩, ⟨0, [6]⟩])]
    [.records [⟨0, [1]⟩, ⟨1, [2]⟩] none, .records [⟨2, [3, 4]⟩] none, .records [⟨3, [5]⟩, ⟨0, [6]⟩] none] := by
  refine ⟨Or.inl rfl, ?_⟩
  intro i o c h1 h2
  match i with
  | 0 => simp at h1 h2; subst h1 h2; exact listMachine_yields _ _
  | 1 => simp at h1 h2; subst h1 h2; exact listMachine_yields _ _
  | 2 => simp at h1 h2; subst h1 h2; exact listMachine_yields _ _
  | n + 3 => simp at h1

example : Assembles .eof (items 0 [.records [⟨0, [1]⟩, ⟨1, [2]⟩] none, .records [⟨2, [3, 4]⟩] none,
      .records [⟨3, [5]⟩, ⟨0, [6]⟩] none]).1
    [(0, some [1]), (2, some ([2] ++ [[3, 4]].flatten ++ [5])), (2, some [6])] .eof :=
  .complete (.split [(1, [3, 4])] (.complete (.eof rfl)))

/-- The record reader of a RecordIO store over any stream, as a machine. -/
def recordioMachine : Machine Record where
  σ := Reader
  init := Reader.init 1 [] []
  read := Reader.read recordioDecode
  reset := id

theorem recordioMachine_outs (st : Reader) (n : Nat) :
    recordioMachine.outs n st = st.readN recordioDecode n := by
  induction n generalizing st with
  | zero => rfl
  | succ n ih => exact congrArg (_ :: ·) (ih _)

theorem recordioMachine_yields (fs : List Frame) (hv : ∀ f ∈ fs, f.Valid) (size : Nat) (hsize : 0 < size)
    (sched : List Nat) :
    recordioMachine.Yields (Reader.init size (recordioFile fs) sched) (fs.map (fun f : Frame => ⟨f.kind, f.payload⟩))
      (.ok none) := by
  intro n
  rw [recordioMachine_outs, readN_eq_wholeN recordio_laws _ _ (Reader.init_inv size hsize _ _) trivial]
  have key : ∀ (fs : List Frame) (n : Nat), (∀ f ∈ fs, f.Valid) → wholeN recordioDecode n (recordioFile fs) =
      ((fs.map (fun f : Frame => (⟨f.kind, f.payload⟩ : Record))).map (fun x => Res.ok (some x)) ++
        List.replicate n (Res.ok none)).take n := by
    intro fs n hv
    have h := wholeN_recordioFile fs hv n
    have tk : ∀ (m k : Nat) (x : Bytes), (wholeN recordioDecode (m + k) x).take m = wholeN recordioDecode m x := by
      intro m
      induction m with
      | zero => intro k x; simp [wholeN]
      | succ m ih =>
        intro k x
        rw [Nat.add_right_comm]
        simp [wholeN, ih]
    have h2 := congrArg (List.take n) h
    rw [Nat.add_comm, tk] at h2
    rw [h2]
    simp [List.map_map, Function.comp_def]
  simpa [Reader.total, Reader.init] using key fs n hv

/-- **C04**, end to end for RecordIO: files made of valid frames, read through any chunk sizes and any
short-read schedules, give exactly the instances that the frames describe. -/
theorem C04_recordio_files_partial (files : List (List Frame × Nat × List Nat))
    (hv : ∀ q ∈ files, (∀ f ∈ q.1, f.Valid) ∧ 0 < q.2.1) (fuel : Nat)
    (is : List (Nat × Option Bytes))
    (ha : Assembles .eof (items 0 (files.map fun q => .records (q.1.map fun f => ⟨f.kind, f.payload⟩) none)).1 is .eof)
    (hfuel : (items 0 (files.map fun q => .records (q.1.map fun f => ⟨f.kind, f.payload⟩) none)).1.length < fuel)
    (n : Nat) :
    (coreReader recordioMachine
        (files.map fun q => .ok (some (Reader.init q.2.1 (recordioFile q.1) q.2.2))) fuel).outs n .fresh =
      ((number [] is).map (fun i => Res.ok (some i)) ++ List.replicate n (Res.ok none)).take n := by
  have hstop : ∀ k, (items k (files.map fun q =>
      Content.records (q.1.map fun f => ⟨f.kind, f.payload⟩) none)).2 = .eof := by
    clear hfuel ha hv
    induction files with
    | nil => intro k; rfl
    | cons q qs ih => intro k; simpa [items] using ih (k + 1)
  have hf : FitsAll recordioMachine
      (files.map fun q => .ok (some (Reader.init q.2.1 (recordioFile q.1) q.2.2)))
      (files.map fun q => .records (q.1.map fun f => ⟨f.kind, f.payload⟩) none) := by
    refine ⟨Or.inl (by simp), ?_⟩
    intro i o c h1 h2
    simp only [List.getElem?_map, Option.map_eq_some_iff] at h1 h2
    obtain ⟨q, hq, rfl⟩ := h1
    obtain ⟨q', hq', rfl⟩ := h2
    rw [hq] at hq'
    simp only [Option.some.injEq] at hq'
    subst hq'
    have := hv q (List.mem_of_getElem? hq)
    exact recordioMachine_yields q.1 this.1 q.2.1 this.2 q.2.2
  exact C04_split_records_partial recordioMachine _ _ hf fuel hfuel is .eof (by rw [hstop]; exact ha) (by simp) n

/-! ## C16 -/

/-- The calls a user can make. -/
inductive Op where
  | read | peek | reset
  deriving DecidableEq

/-- The outcomes of a sequence of calls (a reset gives nothing). -/
def runOps {α : Type} (m : Machine α) : List Op → m.σ × Option α → List (Res (Option α))
  | [], _ => []
  | .read :: ops, s => (baseRead m s).1 :: runOps m ops (baseRead m s).2
  | .peek :: ops, s => (basePeek m s).1 :: runOps m ops (basePeek m s).2
  | .reset :: ops, s => runOps m ops (baseReset m s)

/-- What they should be for a dataset of the items `xs` followed by the permanent outcome `t`, at position
`pos`: a read returns the item at the position and moves on, a peek returns it, a reset goes
back to the start. -/
def specOps {α : Type} (xs : List α) (t : Res (Option α)) : List Op → Nat → List (Res (Option α))
  | [], _ => []
  | .read :: ops, pos =>
    (match xs[pos]? with | some x => .ok (some x) | none => t) :: specOps xs t ops (pos + 1)
  | .peek :: ops, pos =>
    (match xs[pos]? with | some x => .ok (some x) | none => t) :: specOps xs t ops pos
  | .reset :: ops, _ => specOps xs t ops 0

/-- **C16.** For every class built on the common base and every sequence of peeks, reads and resets: peeks
change nothing and return what the next read returns. -/
theorem C16_peek_does_not_consume {α : Type} (m : Machine α) (xs : List α) (t : Res (Option α))
    (ht : ∀ x, t ≠ .ok (some x))
    (hinit : m.Yields m.init xs t) (hreset : ∀ s, m.Yields (m.reset s) xs t) (ops : List Op) :
    runOps m ops m.base.init = specOps xs t ops 0 := by
  -- `past` items were consumed; either nothing is peeked, or the next item is
  have key : ∀ (ops : List Op) (pos : Nat) (s : m.σ × Option α),
      ((s.2 = none ∧ m.Yields s.1 (xs.drop pos) t) ∨
        (∃ x, s.2 = some x ∧ xs[pos]? = some x ∧ m.Yields s.1 (xs.drop (pos + 1)) t)) →
      runOps m ops s = specOps xs t ops pos := by
    intro ops
    induction ops with
    | nil => intros; rfl
    | cons op ops ih =>
      intro pos s hs
      obtain ⟨c, p⟩ := s
      cases op with
      | reset =>
        simp only [runOps, specOps]
        exact ih 0 _ (Or.inl ⟨rfl, by simpa [baseReset] using hreset c⟩)
      | read =>
        simp only [runOps, specOps]
        rcases hs with ⟨hp, hy⟩ | ⟨x, hp, hx, hy⟩
        · simp only at hp hy
          subst hp
          cases hx : xs[pos]? with
          | none =>
            rw [List.drop_eq_nil_of_le (List.getElem?_eq_none_iff.1 hx)] at hy
            obtain ⟨c', e, hy'⟩ := hy.read_nil
            simp only [baseRead, e]
            refine congrArg _ (ih (pos + 1) (c', none) (Or.inl ⟨rfl, ?_⟩))
            rw [List.drop_eq_nil_of_le (by have := List.getElem?_eq_none_iff.1 hx; omega)]
            exact hy'
          | some x =>
            obtain ⟨hlt, hx'⟩ := List.getElem?_eq_some_iff.1 hx
            rw [List.drop_eq_getElem_cons hlt, hx'] at hy
            obtain ⟨c', e, hy'⟩ := hy.read_cons
            simp only [baseRead, e]
            exact congrArg _ (ih (pos + 1) (c', none) (Or.inl ⟨rfl, hy'⟩))
        · simp only at hp hy
          subst hp
          simp only [baseRead, hx]
          exact congrArg _ (ih (pos + 1) (c, none) (Or.inl ⟨rfl, hy⟩))
      | peek =>
        simp only [runOps, specOps]
        rcases hs with ⟨hp, hy⟩ | ⟨x, hp, hx, hy⟩
        · simp only at hp hy
          subst hp
          cases hx : xs[pos]? with
          | none =>
            have hd := List.drop_eq_nil_of_le (List.getElem?_eq_none_iff.1 hx)
            rw [hd] at hy
            obtain ⟨c', e, hy'⟩ := hy.read_nil
            have hpk : basePeek m (c, none) = (t, (c', none)) := by
              match t, ht with
              | .ok (some x), ht => exact absurd rfl (ht x)
              | .ok none, _ => simp [basePeek, e]
              | .err _, _ => simp [basePeek, e]
              | .ub _, _ => simp [basePeek, e]
            rw [hpk]
            exact congrArg _ (ih pos (c', none) (Or.inl ⟨rfl, by rw [hd]; exact hy'⟩))
          | some x =>
            obtain ⟨hlt, hx'⟩ := List.getElem?_eq_some_iff.1 hx
            rw [List.drop_eq_getElem_cons hlt, hx'] at hy
            obtain ⟨c', e, hy'⟩ := hy.read_cons
            simp only [basePeek, e]
            exact congrArg _ (ih pos (c', some x) (Or.inr ⟨x, rfl, hx, hy'⟩))
        · simp only at hp hy
          subst hp
          simp only [basePeek, hx]
          exact congrArg _ (ih pos (c, some x) (Or.inr ⟨x, rfl, hx, hy⟩))
  exact key ops 0 (m.init, none) (Or.inl ⟨rfl, by simpa using hinit⟩)

/-- **C16** for one call, without any assumption on the class: after a peek that returned an item, a
read returns that item and leaves the reader where a read without the peek would have left it,
and another peek returns it again. -/
theorem C16_peek_then_read {α : Type} (m : Machine α) (s : m.σ × Option α) (x : α)
    (h : (basePeek m s).1 = .ok (some x)) :
    baseRead m (basePeek m s).2 = (.ok (some x), (baseRead m s).2) ∧
    (baseRead m s).1 = .ok (some x) ∧
    basePeek m (basePeek m s).2 = basePeek m s := by
  obtain ⟨c, p⟩ := s
  cases p with
  | some y =>
    simp [basePeek] at h
    subst h
    simp [basePeek, baseRead]
  | none =>
    rcases hr : m.read c with ⟨o, c'⟩
    match o with
    | .ok (some y) => simp [basePeek, hr] at h; subst h; simp [basePeek, baseRead, hr]
    | .ok none => simp [basePeek, hr] at h
    | .err e => simp [basePeek, hr] at h
    | .ub w => simp [basePeek, hr] at h

example : runOps (listMachine [1, 2, 3]) [.peek, .peek, .read, .read, .peek, .reset, .peek, .read, .read, .read, .peek, .read]
    (listMachine [1, 2, 3]).base.init =
    [.ok (some 1), .ok (some 1), .ok (some 1), .ok (some 2), .ok (some 3), .ok (some 1), .ok (some 1), .ok (some 2),
      .ok (some 3), .ok none, .ok none] := by decide

/-! ## C17 -/

/-- **C17.** -/
theorem C17_range {α : Type} (inner : Machine α) (xs : List α) (h : inner.Yields inner.init xs (.ok none))
    (skip : Nat) (num : Option Nat) :
    (ranged skip num inner).base.Yields (ranged skip num inner).base.init (range skip num xs) (.ok none) :=
  base_yields (ranged_yields skip num h)

example : (ranged 1 (some 2) (listMachine [10, 11, 12, 13])).base.outs 4
    (ranged 1 (some 2) (listMachine [10, 11, 12, 13])).base.init
    = [.ok (some 11), .ok (some 12), .ok none, .ok none] := by decide

/-! ## C18 -/

/-- **C18**, what one shard reads. -/
theorem C18_shard {α : Type} (inner : Machine α) (xs : List α) (h : inner.Yields inner.init xs (.ok none))
    (n k : Nat) (hk : k < n) :
    (sharded n k inner).base.Yields (sharded n k inner).base.init (shard n k xs) (.ok none) :=
  base_yields (sharded_yields n k hk (by simp) h)

theorem shard_length (n k : Nat) (hk : k < n) {α : Type} (xs : List α) :
    (shard n k xs).length = (xs.length + (n - 1 - k)) / n := by
  have key : ∀ (xs : List α) (j : Nat), j < n → (every n j xs).length = (xs.length + (n - 1 - j)) / n := by
    intro xs
    induction xs with
    | nil =>
      intro j hj
      have : every n j ([] : List α) = [] := by cases j <;> rfl
      rw [this, Nat.div_eq_of_lt (by simp; omega)]
      rfl
    | cons x xs ih =>
      intro j hj
      cases j with
      | zero =>
        simp only [every, List.length_cons, ih (n - 1) (by omega)]
        rw [show xs.length + (n - 1 - (n - 1)) = xs.length by omega,
          show xs.length + 1 + (n - 1 - 0) = xs.length + n by omega, Nat.add_div_right _ (by omega)]
      | succ j =>
        simp only [every, List.length_cons, ih j (by omega)]
        congr 1
        omega
  rw [shard_eq_every n k xs hk]
  exact key xs k hk

theorem shard_split {α : Type} (n m : Nat) (xs : List α) (o : Nat) :
    (((List.range m).flatMap fun k => ((xs.zipIdx o).filter (fun p => p.2 % n = k)).map (·.1))).Perm
      (((xs.zipIdx o).filter (fun p => p.2 % n < m)).map (·.1)) := by
  induction m with
  | zero => simp
  | succ m ih =>
    rw [List.range_succ, List.flatMap_append]
    simp only [List.flatMap_cons, List.flatMap_nil, List.append_nil]
    refine (ih.append_right _).trans ?_
    rw [← List.map_append]
    apply List.Perm.map
    generalize xs.zipIdx o = l
    induction l with
    | nil => simp
    | cons q l ih =>
      by_cases h1 : q.2 % n < m
      · have h2 : ¬ q.2 % n = m := by omega
        have h3 : q.2 % n < m + 1 := by omega
        simpa [List.filter_cons, h1, h2, h3] using ih
      · by_cases h2 : q.2 % n = m
        · have h3 : q.2 % n < m + 1 := by omega
          simp only [List.filter_cons, h2, decide_true, if_true]
          simp only [Bool.false_eq_true, if_false, Nat.lt_irrefl, decide_false]
          have : m < m + 1 := by omega
          simp only [this, decide_true, if_true]
          exact List.perm_middle.trans (ih.cons q)
        · have h3 : ¬ q.2 % n < m + 1 := by omega
          simpa [List.filter_cons, h1, h2, h3] using ih

/-- **C18**, partition: together the shards hold every instance exactly once, and their sizes differ by at
most one. -/
theorem C18_partition {α : Type} (n : Nat) (hn : 0 < n) (xs : List α) :
    ((List.range n).flatMap fun k => shard n k xs).Perm xs ∧
    ∀ i j, i < n → j < n → (shard n i xs).length ≤ (shard n j xs).length + 1 := by
  constructor
  · refine (shard_split n n xs 0).trans ?_
    have : (xs.zipIdx.filter (fun p => decide (p.2 % n < n))) = xs.zipIdx := by
      rw [List.filter_eq_self]
      intro q _
      simp [Nat.mod_lt _ hn]
    rw [this]
    simp
  · intro i j hi hj
    rw [shard_length n i hi, shard_length n j hj, ← Nat.add_div_right _ hn]
    exact Nat.div_le_div_right (by omega)

example : (sharded 3 1 (listMachine [0, 1, 2, 3, 4, 5, 6, 7])).base.outs 4
    (sharded 3 1 (listMachine [0, 1, 2, 3, 4, 5, 6, 7])).base.init
    = [.ok (some 1), .ok (some 4), .ok (some 7), .ok none] := by decide

/-! ## C19 -/

/-- **C19.** The reader returns, for every consecutive block of 100 instances (the last may be
shorter), the first `keep` of them, up to the end of the dataset, where `keep` is the product of the
ratio and the block size in single precision, rounded down: a number between the floor and the
ceiling of the exact product, and not more than the block has. -/
theorem C19_sample {α : Type} (inner : Machine α) (xs : List α) (h : inner.Yields inner.init xs (.ok none))
    (r : Ratio) (hr : r.ok = true) :
    (sampled r inner).base.Yields (sampled r inner).base.init (sample r.keep xs) (.ok none) ∧
    ∀ b, b ≤ 100 → r.keep b ≤ b ∧ r.mant * b / 2 ^ r.exp ≤ r.keep b ∧
      r.keep b ≤ (r.mant * b + (2 ^ r.exp - 1)) / 2 ^ r.exp :=
  ⟨base_yields (sampled_yields r hr h), fun _ hb => ⟨r.keep_le hr (by omega), r.keep_bounds hr (by omega)⟩⟩

/-- **C19**: whenever the exact product has at most 24 significant bits (in particular for the ratios
k/2, k/4, ..., k/1024), `keep` is exactly its floor. -/
theorem C19_exact (r : Ratio) (b : Nat) (h : r.mant * b < 2 ^ 24) : r.keep b = r.mant * b / 2 ^ r.exp := by
  unfold Ratio.keep round24
  rw [if_pos h]

-- The ratio 0.29f = 9730785 / 2^25 keeps 29 of 100, although the exact product is below 29.
example : (⟨9730785, 25⟩ : Ratio).ok = true ∧ (⟨9730785, 25⟩ : Ratio).keep 100 = 29 ∧
    9730785 * 100 / 2 ^ 25 = 28 := by decide

example : (sampled ⟨1, 2⟩ (listMachine (List.range 6))).base.outs 3
    (sampled ⟨1, 2⟩ (listMachine (List.range 6))).base.init = [.ok (some 0), .ok none, .ok none] := by decide

/-! ## C20, C21 -/

/-- **C20.** -/
theorem C20_shuffle {α : Type} (R : Rng) (hR : R.Lawful) (p : ShuffleParams) (inner : Machine α) (xs : List α)
    (h : inner.Yields inner.init xs (.ok none)) (hz : p.window = 0 → xs.length < 2 ^ 64 - 1) :
    ∃ ys, (shuffled R p inner).base.Yields (shuffled R p inner).base.init ys (.ok none) ∧
      ys.Perm xs ∧
      WindowShuffle (if p.window = 0 then xs.length else p.window) xs ys ∧
      (p.window = 1 → ys = xs) := by
  obtain ⟨ys, h1, h2, h3⟩ := shuffled_yields R hR p (R.seed p.seed) h hz
  obtain ⟨idx, i1, i2, i3⟩ := h2
  refine ⟨ys, base_yields h1, ?_, ⟨idx, i1, i2, ?_⟩, h3⟩
  · have e1 : (ys.map some).Perm ((List.range xs.length).map (fun i => xs[i]?)) := i2 ▸ i1.map _
    have e2 : (List.range xs.length).map (fun i => xs[i]?) = xs.map some := by
      apply List.ext_getElem?
      intro j
      by_cases hj : j < xs.length <;> simp [hj]
    rw [e2] at e1
    have e3 := e1.filterMap id
    simpa using e3
  · intro k i hk
    have := i3 k i hk
    by_cases hw : p.window = 0
    · rw [if_pos hw]
      have : i ∈ List.range xs.length := i1.mem_iff.1 (List.mem_of_getElem? hk)
      simp at this
      omega
    · simpa [ShuffleParams.effWindow, hw] using this

/-- A random number facility that meets the requirements: always the largest number, no shuffling. -/
def trivialRng : Rng := ⟨Unit, fun _ => (), fun b _ => (b, ()), fun _ l => (l, ())⟩

example : trivialRng.Lawful := ⟨fun _ _ => Nat.le_refl _, fun _ _ => List.Perm.refl _⟩

example : (shuffled trivialRng ⟨2, 7, true⟩ (listMachine [1, 2, 3, 4])).base.outs 5
    (shuffled trivialRng ⟨2, 7, true⟩ (listMachine [1, 2, 3, 4])).base.init =
    [.ok (some 2), .ok (some 3), .ok (some 4), .ok (some 1), .ok none] := by decide

/-- The inner reader starts again after a reset. -/
def Machine.Resets {α : Type} (m : Machine α) : Prop := ∀ s, m.reset s = m.init

/-- **C21.** Without reshuffling every epoch, from whatever state the reader is reset, is the first one. -/
theorem C21_reproducible {α : Type} (R : Rng) (p : ShuffleParams) (hp : p.reshuffle = false) (inner : Machine α)
    (hi : inner.Resets) (s : (shuffled R p inner).base.σ) (n : Nat) :
    (shuffled R p inner).base.outs n ((shuffled R p inner).base.reset s) =
      (shuffled R p inner).base.outs n (shuffled R p inner).base.init := by
  have : (shuffled R p inner).base.reset s = (shuffled R p inner).base.init := by
    simp [Machine.base, baseReset, shuffled, hp, hi s.1.inner]
  rw [this]

/-! ## C22 -/

theorem base_resets {α : Type} {m : Machine α} (h : m.Resets) : m.base.Resets := by
  intro s
  simp [Machine.base, baseReset, h s.1]

theorem ranged_resets {α : Type} {m : Machine α} (h : m.Resets) (a b) : (ranged a b m).Resets := by
  intro s; simp [ranged, h s.inner]

theorem sharded_resets {α : Type} {m : Machine α} (h : m.Resets) (a b) : (sharded a b m).Resets := by
  intro s; simp [sharded, h s.1]

theorem sampled_resets {α : Type} {m : Machine α} (h : m.Resets) (r) : (sampled r m).Resets := by
  intro s; simp [sampled, h s.inner]

theorem shuffled_resets {α : Type} {m : Machine α} (h : m.Resets) (R : Rng) (p : ShuffleParams)
    (hp : p.reshuffle = false) : (shuffled R p m).Resets := by
  intro s; simp [shuffled, h s.inner, hp]

theorem batched_resets {α : Type} {m : Machine α} (h : m.Resets) (b l) : (batched b l m).Resets := by
  intro s; simp [batched, h s.1]

theorem core_resets (rm stores fuel) : (coreReader rm stores fuel).Resets := fun _ => rfl

theorem make_resets {α : Type} (R : Rng) (o : ReadOptions) (core r : Machine α)
    (hc : core.Resets) (hm : makeInstanceReader R o core = some r)
    (hs : ∀ p, o.shuffle = some p → p.reshuffle = false) : r.Resets := by
  unfold makeInstanceReader at hm
  simp only at hm
  have h1 : (if o.toSkip > 0 ∨ o.toRead.isSome then (ranged o.toSkip o.toRead core.base).base else core.base).Resets := by
    split
    · exact base_resets (ranged_resets (base_resets hc) _ _)
    · exact base_resets hc
  generalize (if o.toSkip > 0 ∨ o.toRead.isSome then (ranged o.toSkip o.toRead core.base).base else core.base) = r1 at *
  split at hm
  · simp at hm
  · have h2 : (if o.numShards > 1 then (sharded o.numShards o.shardIndex r1).base else r1).Resets := by
      split
      · exact base_resets (sharded_resets h1 _ _)
      · exact h1
    generalize (if o.numShards > 1 then (sharded o.numShards o.shardIndex r1).base else r1) = r2 at *
    cases hr : o.sampleRatio with
    | none =>
      cases hsh : o.shuffle with
      | none => simp [hr, hsh] at hm; subst hm; exact h2
      | some p =>
        simp [hr, hsh] at hm; subst hm
        exact base_resets (shuffled_resets h2 R p (hs p hsh))
    | some q =>
      by_cases hq : q.ok = true
      · cases hsh : o.shuffle with
        | none =>
          simp [hr, hsh, hq] at hm; subst hm
          exact base_resets (sampled_resets h2 q)
        | some p =>
          simp [hr, hsh, hq] at hm; subst hm
          exact base_resets (shuffled_resets (base_resets (sampled_resets h2 q)) R p (hs p hsh))
      · simp [hr, hq] at hm

/-- **C22.** For every dataset and combination of options (shuffling without reshuffling included), the
instances and the batches read after a reset, in whatever state, are those of a new reader: same
instances, same indices, same batch numbers, same errors. -/
theorem C22_reset_starts_fresh (R : Rng) (o : ReadOptions) (rm : Machine Record) (stores : List (Res (Option rm.σ)))
    (fuel : Nat) (r : Machine Inst) (hm : makeInstanceReader R o (coreReader rm stores fuel) = some r)
    (hs : ∀ p, o.shuffle = some p → p.reshuffle = false) (b : Nat) (l : LastHandling) :
    (∀ s n, r.outs n (r.reset s) = r.outs n r.init) ∧
    (∀ s n, (batched b l r).outs n ((batched b l r).reset s) = (batched b l r).outs n (batched b l r).init) := by
  have h := make_resets R o _ r (core_resets rm stores fuel) hm hs
  exact ⟨fun s n => by rw [h s], fun s n => by rw [batched_resets h b l s]⟩

/-! ## C23 -/

/-- The instances that the options select, before shuffling. -/
def selected {α : Type} (o : ReadOptions) (xs : List α) : List α :=
  let xs := range o.toSkip o.toRead xs
  let xs := if o.numShards > 1 then shard o.numShards o.shardIndex xs else xs
  match o.sampleRatio with
  | some q => sample q.keep xs
  | none => xs

/-- **C23.** A reader is made unless the shard index or the sample ratio is out of range; it returns the
selected instances (range, then shard, then sample), shuffled last. -/
theorem C23_options_compose {α : Type} (R : Rng) (hR : R.Lawful) (o : ReadOptions) (core : Machine α) (xs : List α)
    (h : core.Yields core.init xs (.ok none)) (hlen : xs.length < 2 ^ 64 - 1) :
    (makeInstanceReader R o core = none ↔
      (o.numShards > 1 ∧ o.shardIndex ≥ o.numShards) ∨ ∃ q, o.sampleRatio = some q ∧ q.ok = false) ∧
    ∀ r, makeInstanceReader R o core = some r → ∃ ys, r.Yields r.init ys (.ok none) ∧
      match o.shuffle with
      | none => ys = selected o xs
      | some p => ys.Perm (selected o xs) ∧
          WindowShuffle (if p.window = 0 then (selected o xs).length else p.window) (selected o xs) ys := by
  have hsel : (selected o xs).length ≤ xs.length := by
    have h1 : (range o.toSkip o.toRead xs).length ≤ xs.length := by
      unfold range
      cases o.toRead <;> simp <;> omega
    have h2 : ∀ (n k : Nat) (zs : List α), (shard n k zs).length ≤ zs.length := by
      intro n k zs
      unfold shard
      rw [List.length_map]
      refine Nat.le_trans (List.length_filter_le _ _) ?_
      simp
    have h3 : ∀ (kp : Nat → Nat) (n : Nat) (zs : List α), zs.length ≤ n → (sample kp zs).length ≤ zs.length := by
      intro kp n
      induction n using Nat.strongRecOn with
      | ind n ih =>
        intro zs hn
        by_cases hz : zs = []
        · subst hz; rw [sample_nil]; simp
        · have hp := List.length_pos_iff.2 hz
          rw [sample_cons kp zs hz]
          have := ih (zs.drop 100).length (by simp; omega) (zs.drop 100) (Nat.le_refl _)
          simp only [List.length_append, List.length_take, List.length_drop] at *
          omega
    unfold selected
    simp only
    cases o.sampleRatio with
    | none =>
      simp only
      split
      · exact Nat.le_trans (h2 _ _ _) h1
      · exact h1
    | some q =>
      refine Nat.le_trans (h3 _ _ _ (Nat.le_refl _)) ?_
      split
      · exact Nat.le_trans (h2 _ _ _) h1
      · exact h1
  have y1 : ∃ r1, r1 = (if o.toSkip > 0 ∨ o.toRead.isSome then (ranged o.toSkip o.toRead core.base).base else core.base) ∧
      r1.Yields r1.init (range o.toSkip o.toRead xs) (.ok none) := by
    refine ⟨_, rfl, ?_⟩
    by_cases hc : o.toSkip > 0 ∨ o.toRead.isSome
    · rw [if_pos hc]
      exact base_yields (ranged_yields _ _ (base_yields h))
    · rw [if_neg hc]
      have hr : range o.toSkip o.toRead xs = xs := by
        have e1 : o.toSkip = 0 := by omega
        have e2 : o.toRead = none := by
          cases hn : o.toRead with
          | none => rfl
          | some n => simp [hn] at hc
        simp [range, e1, e2]
      rw [hr]
      exact base_yields h
  obtain ⟨r1, e1, y1⟩ := y1
  unfold makeInstanceReader
  simp only [← e1]
  by_cases hsh : o.numShards > 1 ∧ o.shardIndex ≥ o.numShards
  · rw [if_pos hsh]
    exact ⟨by simp [hsh], by simp⟩
  · rw [if_neg hsh]
    have y2 : ∃ r2, r2 = (if o.numShards > 1 then (sharded o.numShards o.shardIndex r1).base else r1) ∧
        r2.Yields r2.init (if o.numShards > 1 then shard o.numShards o.shardIndex (range o.toSkip o.toRead xs)
          else range o.toSkip o.toRead xs) (.ok none) := by
      refine ⟨_, rfl, ?_⟩
      by_cases hc : o.numShards > 1
      · rw [if_pos hc, if_pos hc]
        exact base_yields (sharded_yields _ _ (by omega) (by simp) y1)
      · rw [if_neg hc, if_neg hc]
        exact y1
    obtain ⟨r2, e2, y2⟩ := y2
    simp only [← e2]
    have shuf : ∀ (rr : Machine α), rr.Yields rr.init (selected o xs) (.ok none) → ∀ p, o.shuffle = some p →
        ∃ ys, (shuffled R p rr).base.Yields (shuffled R p rr).base.init ys (.ok none) ∧ ys.Perm (selected o xs) ∧
          WindowShuffle (if p.window = 0 then (selected o xs).length else p.window) (selected o xs) ys := by
      intro rr hy p _
      obtain ⟨ys, a, b, c, _⟩ := C20_shuffle R hR p rr _ hy (fun _ => by omega)
      exact ⟨ys, a, b, c⟩
    have hselect : selected o xs = (match o.sampleRatio with
        | some q => sample q.keep (if o.numShards > 1 then shard o.numShards o.shardIndex (range o.toSkip o.toRead xs)
          else range o.toSkip o.toRead xs)
        | none => (if o.numShards > 1 then shard o.numShards o.shardIndex (range o.toSkip o.toRead xs)
          else range o.toSkip o.toRead xs)) := rfl
    cases hr : o.sampleRatio with
    | none =>
      rw [hr] at hselect
      simp only at hselect
      rw [← hselect] at y2
      cases hs : o.shuffle with
      | none =>
        refine ⟨by simp; omega, ?_⟩
        intro r hm
        simp only [Option.some.injEq] at hm
        subst hm
        exact ⟨_, y2, rfl⟩
      | some p =>
        refine ⟨by simp; omega, ?_⟩
        intro r hm
        simp only [Option.some.injEq] at hm
        subst hm
        exact shuf r2 y2 p hs
    | some q =>
      rw [hr] at hselect
      simp only at hselect
      by_cases hq : q.ok = true
      · have y3 := base_yields (sampled_yields q hq y2)
        rw [← hselect] at y3
        simp only [if_pos hq]
        cases hs : o.shuffle with
        | none =>
          refine ⟨by simp [hq]; omega, ?_⟩
          intro r hm
          simp only [Option.some.injEq] at hm
          subst hm
          exact ⟨_, y3, rfl⟩
        | some p =>
          refine ⟨by simp [hq]; omega, ?_⟩
          intro r hm
          simp only [Option.some.injEq] at hm
          subst hm
          exact shuf _ y3 p hs
      · simp only [if_neg hq]
        refine ⟨?_, by simp⟩
        simp at hq
        simp [hq]

-- Skip one, take seven, second of two shards, a half of every block.
example : ((makeInstanceReader trivialRng
      { toSkip := 1, toRead := some 7, numShards := 2, shardIndex := 1, sampleRatio := some ⟨1, 1⟩ }
      (listMachine (List.range 20))).map (fun r => r.outs 3 r.init)) =
    some [.ok (some 2), .ok none, .ok none] := by decide

/-- **C22**, reshuffling: whatever the random engine's state at the reset, the next epoch returns the same
instances in an order within the window. -/
theorem C22_reshuffled_epoch {α : Type} (R : Rng) (hR : R.Lawful) (p : ShuffleParams) (inner : Machine α)
    (hi : inner.Resets) (xs : List α) (h : inner.Yields inner.init xs (.ok none))
    (hz : p.window = 0 → xs.length < 2 ^ 64 - 1) (s : (shuffled R p inner).base.σ) :
    ∃ ys, (shuffled R p inner).base.Yields ((shuffled R p inner).base.reset s) ys (.ok none) ∧
      WindowShuffle p.effWindow xs ys := by
  have e : (shuffled R p inner).base.reset s =
      ((⟨inner.init, [], true, if p.reshuffle then s.1.rng else R.seed p.seed⟩ : ShuffledState inner.σ R.G α), none) := by
    simp [Machine.base, baseReset, shuffled, hi s.1.inner]
  obtain ⟨ys, h1, h2, _⟩ := shuffled_yields R hR p (if p.reshuffle then s.1.rng else R.seed p.seed) h hz
  refine ⟨ys, ?_, h2⟩
  rw [e]
  exact base_yields h1

/-! ## C24 -/

/-- **C24**, all handlings except `pad_warn`. -/
theorem C24_batches_partial {α : Type} (inner : Machine α) (xs : List α) (h : inner.Yields inner.init xs (.ok none))
    (b : Nat) (hb : 0 < b) (l : LastHandling) (hl : l ≠ .padWarn) :
    (batched b l inner).Yields (batched b l inner).init (batches b l xs) (.ok none) :=
  batched_yields b hb l hl h

theorem flatten_blocks {α : Type} (b : Nat) (hb : 0 < b) (n : Nat) :
    ∀ xs : List α, xs.length ≤ n → (blocks b xs).flatten = xs := by
  induction n using Nat.strongRecOn with
  | ind n ih =>
    intro xs hn
    by_cases hx : xs = []
    · subst hx; rw [blocks_nil b hb]; rfl
    · have hp := List.length_pos_iff.2 hx
      rw [blocks_cons b hb xs hx, List.flatten_cons,
        ih (xs.drop b).length (by simp; omega) _ (Nat.le_refl _), List.take_append_drop]

/-- **C24**, in terms of the batches: unless short batches are dropped, concatenating them gives all
instances in order; if they are dropped, it gives the longest prefix whose length is a multiple of
the batch size; every batch but the last is full; the numbers count from zero. -/
theorem C24_batches_meaning {α : Type} (b : Nat) (hb : 0 < b) (l : LastHandling) (xs : List α) :
    ((batches b l xs).map (·.instances)).flatten =
      (if dropsShort l then xs.take (xs.length / b * b) else xs) ∧
    (∀ i q, (batches b l xs)[i]? = some q → q.index = i ∧ q.instances ≠ [] ∧
      (i + 1 < (batches b l xs).length → q.instances.length = b) ∧
      q.size = if padsShort l then b else q.instances.length) := by
  -- generalise the first number
  have key : ∀ (n : Nat) (xs : List α) (f : Nat), xs.length ≤ n →
      ((batchesFrom f b l xs).map (·.instances)).flatten =
        (if dropsShort l then xs.take (xs.length / b * b) else xs) ∧
      (∀ i q, (batchesFrom f b l xs)[i]? = some q → q.index = f + i ∧ q.instances ≠ [] ∧
        (i + 1 < (batchesFrom f b l xs).length → q.instances.length = b) ∧
        q.size = if padsShort l then b else q.instances.length) := by
    intro n
    induction n using Nat.strongRecOn with
    | ind n ih =>
      intro xs f hn
      by_cases hx : xs = []
      · subst hx; rw [batchesFrom_nil f b hb]; simp
      · have hp := List.length_pos_iff.2 hx
        rw [batchesFrom_cons f b hb l xs hx]
        obtain ⟨i1, i2⟩ := ih (xs.drop b).length (by simp; omega) (xs.drop b) (f + 1) (Nat.le_refl _)
        have hne : xs.take b ≠ [] := by
          intro h0
          rw [List.take_eq_nil_iff] at h0
          rcases h0 with h0 | h0
          · omega
          · exact hx h0
        by_cases hfull : b ≤ xs.length
        · have hlen : (xs.take b).length = b := by simp [hfull]
          rw [if_pos (Or.inl hlen)]
          constructor
          · rw [List.map_cons, List.flatten_cons, i1]
            by_cases hd : dropsShort l = true
            · rw [if_pos hd, if_pos hd, List.length_drop]
              have e : xs.length / b * b = b + (xs.length - b) / b * b := by
                have : xs.length / b = (xs.length - b) / b + 1 := by
                  rw [← Nat.add_div_right _ hb]
                  congr 1
                  omega
                rw [this, Nat.succ_mul]
                omega
              rw [e, List.take_add]
            · rw [if_neg hd, if_neg hd, List.take_append_drop]
          · intro i q hq
            cases i with
            | zero =>
              simp at hq
              subst hq
              exact ⟨rfl, hne, fun _ => hlen, by simp⟩
            | succ i =>
              simp only [List.getElem?_cons_succ] at hq
              obtain ⟨j1, j2, j3, j4⟩ := i2 i q hq
              exact ⟨by omega, j2, fun h => j3 (by simpa using h), j4⟩
        · have hd0 : xs.drop b = [] := List.drop_eq_nil_of_le (by omega)
          have htk : xs.take b = xs := List.take_of_length_le (by omega)
          rw [hd0, batchesFrom_nil _ b hb, htk]
          by_cases hd : dropsShort l = true
          · rw [if_neg (by simp [hd]; omega), if_pos hd]
            refine ⟨?_, by simp⟩
            rw [Nat.div_eq_of_lt (by omega)]
            simp
          · rw [if_pos (Or.inr hd), if_neg hd]
            refine ⟨by simp, ?_⟩
            intro i q hq
            cases i with
            | zero =>
              simp at hq
              subst hq
              exact ⟨rfl, hx, by simp, rfl⟩
            | succ i => simp at hq
  have := key xs.length xs 0 (Nat.le_refl _)
  simpa [batches] using this

/-- **C24** is false for `pad_warn`: three instances in batches of two; the last batch is declared with
size one and not two. -/
theorem C24_pad_warn_violated :
    ¬ (batched 2 .padWarn (listMachine [1, 2, 3])).Yields
        (batched 2 .padWarn (listMachine [1, 2, 3])).init (batches 2 .padWarn [1, 2, 3]) (.ok none) := by
  intro h
  have := h 2
  revert this
  decide

/-- **C24**, partial: with `pad_warn` the reader is the same as with `none`, for every dataset, also one that fails: nothing
but the padding is missing.  So what is proved about readers with `none` (C27, C66–C68, C74, C75, C80) holds with `pad_warn`. -/
theorem C24_pad_warn_partial {α : Type} (inner : Machine α) (b : Nat) :
    batched b .padWarn inner = batched b .none_ inner ∧
    ∀ xs : List α, inner.Yields inner.init xs (.ok none) → 0 < b →
      (batched b .padWarn inner).Yields (batched b .padWarn inner).init (batches b .none_ xs) (.ok none) := by
  have e : batched b .padWarn inner = batched b .none_ inner := by
    have h : batchRead b .padWarn inner = batchRead b .none_ inner := by
      funext s
      simp [batchRead]
    unfold batched
    rw [h]
  refine ⟨e, fun xs h hb => ?_⟩
  rw [e]
  exact C24_batches_partial inner xs h b hb .none_ (by decide)

/-- **C24**: if reading the dataset fails after `xs`, the full batches come first, then the failure. -/
theorem C24_batches_before_failure {α : Type} (inner : Machine α) (xs : List α) (e : Err)
    (h : inner.Yields inner.init xs (.err e)) (b : Nat) (hb : 0 < b) (l : LastHandling) :
    (batched b l inner).Yields (batched b l inner).init (batches b .drop xs) (.err e) :=
  batched_yields_fail b hb l h

example : (batched 2 .pad (listMachine [1, 2, 3])).outs 3 (batched 2 .pad (listMachine [1, 2, 3])).init =
    [.ok (some ⟨0, [1, 2], 2⟩), .ok (some ⟨1, [3], 2⟩), .ok none] := by decide

end Mlio
