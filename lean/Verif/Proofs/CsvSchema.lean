import Verif.Spec.CsvSchema
import Verif.Proofs.Tensor
import Verif.Proofs.Instances
import Verif.Proofs.CsvDecode

namespace Mlio
open Spec

/-! ## Decimal numbers -/

def decVal (xs : Bytes) : Nat := xs.foldl (fun a c => 10 * a + (c.toNat - 48)) 0

theorem decVal_snoc (xs : Bytes) (c : UInt8) : decVal (xs ++ [c]) = 10 * decVal xs + (c.toNat - 48) := by
  simp [decVal, List.foldl_append]

theorem decimalFuel_val : ∀ (f n : Nat), n < f → decVal (decimalFuel f n) = n
  | 0, n, h => by omega
  | f + 1, n, h => by
    unfold decimalFuel
    by_cases hn : n < 10
    · rw [if_pos hn]
      simp only [decVal, List.foldl, UInt8.toNat_ofNat']
      omega
    · rw [if_neg hn, decVal_snoc, decimalFuel_val f (n / 10) (by omega)]
      simp only [UInt8.toNat_ofNat']
      omega

theorem decimal_inj {m n : Nat} (h : decimal m = decimal n) : m = n := by
  rw [← decimalFuel_val (m + 1) m (by omega), ← decimalFuel_val (n + 1) n (by omega)]
  exact congrArg decVal h

/-! ## Renaming -/

def keysOf (m : List (Bytes × Nat)) : List Bytes := m.map Prod.fst

theorem lookup_none_iff (m : List (Bytes × Nat)) (k : Bytes) : m.lookup k = none ↔ k ∉ keysOf m := by
  induction m with
  | nil => simp [keysOf, List.lookup]
  | cons p m ih =>
    by_cases h : k = p.1
    · subst h; simp [List.lookup, keysOf]
    · have : (k == p.1) = false := by simpa using h
      simp only [List.lookup, this]
      rw [ih]
      simp [keysOf, h]

theorem keysOf_setCount (m : List (Bytes × Nat)) (k : Bytes) (c : Nat) : keysOf (setCount m k c) = keysOf m := by
  unfold keysOf setCount
  rw [List.map_map]
  apply List.map_congr_left
  intro p _
  simp only [Function.comp]
  by_cases h : p.1 = k
  · simp [h]
  · simp [h]

def longer (name : Bytes) (ks : List Bytes) : Nat := ks.countP (fun k => decide (name.length ≤ k.length))

theorem longer_lt (name : Bytes) (x : Bytes) (ks : List Bytes) (h : name ∈ ks) (hx : x ≠ []) :
    longer (name ++ x) ks < longer name ks := by
  have hpos : 0 < x.length := List.length_pos_iff.2 hx
  unfold longer
  induction ks with
  | nil => simp at h
  | cons k ks ih =>
    have mono : ks.countP (fun k => decide ((name ++ x).length ≤ k.length)) ≤
        ks.countP (fun k => decide (name.length ≤ k.length)) := by
      apply List.countP_mono_left
      intro y _ hy
      simp only [List.length_append, decide_eq_true_eq] at hy ⊢
      omega
    by_cases hk : name ∈ ks
    · have := ih hk
      rw [List.countP_cons, List.countP_cons]
      by_cases h1 : (name ++ x).length ≤ k.length
      · have h2 : name.length ≤ k.length := by simp at h1; omega
        simp only [h1, h2, decide_true, if_true]; omega
      · simp only [h1, decide_false, Bool.false_eq_true, if_false]; omega
    · simp only [List.mem_cons, hk, or_false] at h
      subst h
      rw [List.countP_cons, List.countP_cons]
      have h1 : ¬ (name ++ x).length ≤ name.length := by simp; omega
      simp only [h1, decide_false, Bool.false_eq_true, if_false, Nat.le_refl, decide_true, if_true]
      omega

theorem dedupeName_spec : ∀ (f : Nat) (m : List (Bytes × Nat)) (name : Bytes), longer name (keysOf m) < f →
    ∃ n' m', dedupeName f m name = some (n', m') ∧ keysOf m' = n' :: keysOf m ∧ n' ∉ keysOf m ∧ name <+: n' ∧
      (name ∉ keysOf m → n' = name)
  | 0, m, name, h => by omega
  | f + 1, m, name, h => by
    unfold dedupeName
    cases hl : m.lookup name with
    | none =>
      have := (lookup_none_iff m name).1 hl
      exact ⟨name, (name, 1) :: m, rfl, rfl, this, List.prefix_rfl, fun _ => rfl⟩
    | some c =>
      have hin : name ∈ keysOf m := by
        apply Classical.byContradiction
        intro hn
        rw [(lookup_none_iff m name).2 hn] at hl; simp at hl
      have hlt := longer_lt name (95 :: decimal c) (keysOf m) hin (by simp)
      obtain ⟨n', m', h1, h2, h3, h4, h5⟩ := dedupeName_spec f (setCount m name (c + 1)) (name ++ 95 :: decimal c)
        (by rw [keysOf_setCount]; omega)
      rw [keysOf_setCount] at h2 h3
      exact ⟨n', m', h1, h2, h3, (List.prefix_append _ _).trans h4, fun hn => absurd hin hn⟩

theorem longer_le (name : Bytes) (m : List (Bytes × Nat)) : longer name (keysOf m) < m.length + 1 := by
  have := List.countP_le_length (p := fun k => decide (name.length ≤ k.length)) (l := keysOf m)
  unfold longer
  simp only [keysOf, List.length_map] at this ⊢
  omega

theorem makeAttr_column (batch : Nat) (n : Bytes) (t : DataType) :
    makeAttr n t [batch, 1] [] false = .ok (columnAttr batch (n, t)) := rfl

theorem shouldSkip_iff (o : CsvOpts) (i : Nat) (n : Bytes) : shouldSkip o i n = false ↔ Selected o i n := by
  unfold shouldSkip Selected
  by_cases h1 : o.useIndices = [] <;> by_cases h2 : o.useColumns = [] <;> simp [h1, h2]

/-- `column_ignores_` and `column_parsers_` of the columns from `i` on. -/
def flagsFrom (o : CsvOpts) : Nat → List (Bytes × DataType) → List Bool × List (Option DataType)
  | _, [] => ([], [])
  | i, c :: cs =>
    let r := flagsFrom o (i + 1) cs
    (shouldSkip o i c.1 :: r.1, (if shouldSkip o i c.1 then none else some c.2) :: r.2)

theorem renamed_congr (batch : Nat) : ∀ (cs : List (Bytes × DataType)) (as : List Attr) (s s' : List Bytes),
    (∀ x, x ∈ s ↔ x ∈ s') → Renamed batch s cs as → Renamed batch s' cs as
  | [], [], _, _, _, _ => trivial
  | c :: cs, a :: as, s, s', h, hr => by
    obtain ⟨h1, h2, h3, h4, h5⟩ := hr
    refine ⟨h1, h2, fun hm => h3 ((h _).2 hm), fun hn => h4 (fun hm => hn ((h _).1 hm)), ?_⟩
    exact renamed_congr batch cs as _ _ (by intro x; simp [h x]) h5
  | [], _ :: _, _, _, _, h => h.elim
  | _ :: _, [], _, _, _, h => h.elim

theorem initLoop_dedupe (o : CsvOpts) (hd : o.dedupe = true) (batch : Nat) :
    ∀ (ns : List Bytes) (ts : List DataType) (i : Nat) (m : List (Bytes × Nat)), ns.length = ts.length →
    ∃ as, initLoop o batch i ns ts m = (.ok as, flagsFrom o i (ns.zip ts)) ∧
      Renamed batch (keysOf m) (usedFrom o i (ns.zip ts)) as
  | [], [], i, m, _ => ⟨[], by simp [initLoop, flagsFrom, usedFrom, Renamed]⟩
  | [], _ :: _, _, _, h => by simp at h
  | _ :: _, [], _, _, h => by simp at h
  | n :: ns, t :: ts, i, m, h => by
    have hl : ns.length = ts.length := by simpa using h
    unfold initLoop
    by_cases hs : shouldSkip o i n = true
    · obtain ⟨as, h1, h2⟩ := initLoop_dedupe o hd batch ns ts (i + 1) m hl
      refine ⟨as, ?_, ?_⟩
      · rw [if_pos hs, h1]
        simp [flagsFrom, hs]
      · have : ¬ Selected o i n := by rw [← shouldSkip_iff]; simp [hs]
        simpa [usedFrom, this] using h2
    · have hs' : shouldSkip o i n = false := by simpa using hs
      have hsel := (shouldSkip_iff o i n).1 hs'
      obtain ⟨n', m', g1, g2, g3, g4, g5⟩ := dedupeName_spec (m.length + 1) m n (longer_le n m)
      obtain ⟨as, h1, h2⟩ := initLoop_dedupe o hd batch ns ts (i + 1) m' hl
      refine ⟨columnAttr batch (n', t) :: as, ?_, ?_⟩
      · rw [if_neg hs, if_pos hd, g1]
        simp only [makeAttr_column, h1]
        simp [flagsFrom, hs']
      · simp only [List.zip_cons_cons, usedFrom, if_pos hsel]
        refine ⟨rfl, g4, g3, g5, ?_⟩
        refine renamed_congr batch _ _ _ _ ?_ h2
        intro x
        rw [g2]
        simp [columnAttr, or_comm]

theorem initLoop_plain (o : CsvOpts) (hd : o.dedupe = false) (batch : Nat) :
    ∀ (ns : List Bytes) (ts : List DataType) (i : Nat) (m : List (Bytes × Nat)), ns.length = ts.length →
    initLoop o batch i ns ts m =
      (.ok ((usedFrom o i (ns.zip ts)).map (columnAttr batch)), flagsFrom o i (ns.zip ts))
  | [], [], i, m, _ => by simp [initLoop, flagsFrom, usedFrom]
  | [], _ :: _, _, _, h => by simp at h
  | _ :: _, [], _, _, h => by simp at h
  | n :: ns, t :: ts, i, m, h => by
    have hl : ns.length = ts.length := by simpa using h
    unfold initLoop
    by_cases hs : shouldSkip o i n = true
    · have h1 := initLoop_plain o hd batch ns ts (i + 1) m hl
      have : ¬ Selected o i n := by rw [← shouldSkip_iff]; simp [hs]
      rw [if_pos hs, h1]
      simp [flagsFrom, hs, usedFrom, this]
    · have hs' : shouldSkip o i n = false := by simpa using hs
      have hsel := (shouldSkip_iff o i n).1 hs'
      have h1 := initLoop_plain o hd batch ns ts (i + 1) m hl
      rw [if_neg hs, hd]
      simp only [Bool.false_eq_true, if_false, makeAttr_column, h1]
      simp [flagsFrom, hs', usedFrom, hsel]

theorem renamed_nodup (batch : Nat) : ∀ (cs : List (Bytes × DataType)) (as : List Attr) (s : List Bytes),
    Renamed batch s cs as → (as.map Attr.name).Nodup ∧ ∀ a ∈ as, a.name ∉ s
  | [], [], _, _ => by simp
  | c :: cs, a :: as, s, hr => by
    obtain ⟨h1, h2, h3, h4, h5⟩ := hr
    obtain ⟨ih1, ih2⟩ := renamed_nodup batch cs as _ h5
    refine ⟨?_, ?_⟩
    · simp only [List.map_cons, List.nodup_cons]
      refine ⟨?_, ih1⟩
      intro hm
      obtain ⟨b, hb, hn⟩ := List.mem_map.1 hm
      have := ih2 b hb
      rw [hn] at this
      simp at this
    · intro b hb
      simp only [List.mem_cons] at hb
      rcases hb with rfl | hb
      · exact h3
      · exact fun hm => ih2 b hb (by simp [hm])
  | [], _ :: _, _, h => h.elim
  | _ :: _, [], _, h => h.elim

theorem renamed_length (batch : Nat) : ∀ (cs : List (Bytes × DataType)) (as : List Attr) (s : List Bytes),
    Renamed batch s cs as → as.length = cs.length
  | [], [], _, _ => rfl
  | c :: cs, a :: as, s, hr => by
    simp [renamed_length batch cs as _ hr.2.2.2.2]
  | [], _ :: _, _, h => h.elim
  | _ :: _, [], _, h => h.elim

theorem renamed_distinct (batch : Nat) : ∀ (cs : List (Bytes × DataType)) (as : List Attr) (s : List Bytes),
    Renamed batch s cs as → (cs.map Prod.fst).Nodup → (∀ c ∈ cs, c.1 ∉ s) → as = cs.map (columnAttr batch)
  | [], [], _, _, _, _ => rfl
  | c :: cs, a :: as, s, hr, hn, hs => by
    obtain ⟨h1, h2, h3, h4, h5⟩ := hr
    have hname := h4 (hs c (by simp))
    simp only [List.map_cons, List.nodup_cons] at hn
    rw [renamed_distinct batch cs as _ h5 hn.2 (by
      intro d hd hm
      simp only [List.mem_append, List.mem_singleton] at hm
      rcases hm with hm | hm
      · exact hs d (by simp [hd]) hm
      · apply hn.1
        rw [← hname, ← hm]
        exact List.mem_map_of_mem hd)]
    rw [hname] at h1
    rw [h1, List.map_cons]
  | [], _ :: _, _, h, _, _ => h.elim
  | _ :: _, [], _, h, _, _ => h.elim

theorem makeCsvSchema_dedupe (o : CsvOpts) (hd : o.dedupe = true) (batch : Nat) (s : CsvState)
    (hl : s.names.length = s.types.length) :
    ∃ as sch, Renamed batch [] (used o s.names s.types) as ∧ makeSchema as = .ok sch ∧ sch.attrs = as ∧
      makeCsvSchema o batch s = (.ok sch, { s with
        ignores := s.ignores ++ (flagsFrom o 0 (s.names.zip s.types)).1,
        parsers := s.parsers ++ (flagsFrom o 0 (s.names.zip s.types)).2 }) := by
  obtain ⟨as, h1, h2⟩ := initLoop_dedupe o hd batch s.names s.types 0 [] hl
  have hnd := (renamed_nodup batch _ _ _ h2).1
  rcases schemaLoop_spec as 0 [] with ⟨he, hn⟩ | ⟨m, he, _⟩
  · exact absurd ⟨hnd, by simp [List.lookup]⟩ hn
  · have hm : makeSchema as = .ok ⟨as, m⟩ := by unfold makeSchema; rw [he]
    refine ⟨as, ⟨as, m⟩, h2, hm, rfl, ?_⟩
    unfold makeCsvSchema
    rw [h1]
    simp only [hm]

theorem makeCsvSchema_plain (o : CsvOpts) (hd : o.dedupe = false) (batch : Nat) (s : CsvState)
    (hl : s.names.length = s.types.length) :
    (((used o s.names s.types).map Prod.fst).Nodup →
      ∃ sch, sch.attrs = (used o s.names s.types).map (columnAttr batch) ∧
      makeCsvSchema o batch s = (.ok sch, { s with
        ignores := s.ignores ++ (flagsFrom o 0 (s.names.zip s.types)).1,
        parsers := s.parsers ++ (flagsFrom o 0 (s.names.zip s.types)).2 })) ∧
    (¬ ((used o s.names s.types).map Prod.fst).Nodup →
      makeCsvSchema o batch s = (.err .schemaError, { s with
        ignores := s.ignores ++ (flagsFrom o 0 (s.names.zip s.types)).1,
        parsers := s.parsers ++ (flagsFrom o 0 (s.names.zip s.types)).2 })) := by
  have h1 := initLoop_plain o hd batch s.names s.types 0 [] hl
  have hnames : (((used o s.names s.types).map (columnAttr batch)).map Attr.name) =
      (used o s.names s.types).map Prod.fst := by
    rw [List.map_map]; rfl
  change initLoop o batch 0 s.names s.types [] =
    (.ok ((used o s.names s.types).map (columnAttr batch)), flagsFrom o 0 (s.names.zip s.types)) at h1
  generalize (used o s.names s.types).map (columnAttr batch) = as at h1 hnames ⊢
  rcases schemaLoop_spec as 0 [] with ⟨he, hn⟩ | ⟨m, he, hnd, _⟩
  · have hnd : ¬ (as.map Attr.name).Nodup := fun h => hn ⟨h, by simp [List.lookup]⟩
    have hm : makeSchema as = .err .invalidArgument := by unfold makeSchema; rw [he]
    rw [← hnames]
    refine ⟨fun h => absurd h hnd, fun _ => ?_⟩
    unfold makeCsvSchema
    rw [h1]
    simp only [hm, if_neg hnd]
  · have hm : makeSchema as = .ok ⟨as, m⟩ := by unfold makeSchema; rw [he]
    rw [← hnames]
    refine ⟨fun _ => ⟨⟨as, m⟩, rfl, ?_⟩, fun h => absurd hnd h⟩
    unfold makeCsvSchema
    rw [h1]
    simp only [hm]

/-! ### Equal names -/

theorem lookup_cons_ne {β : Type} (k x : Bytes) (v : β) (m : List (Bytes × β)) (h : x ≠ k) :
    ((k, v) :: m).lookup x = m.lookup x := by
  have : (x == k) = false := by simpa using h
  simp [List.lookup, this]

theorem lookup_setCount_self (m : List (Bytes × Nat)) (k : Bytes) (c : Nat) (h : k ∈ keysOf m) :
    (setCount m k c).lookup k = some c := by
  induction m with
  | nil => simp [keysOf] at h
  | cons p m ih =>
    by_cases hp : p.1 = k
    · simp [setCount, hp]
    · have hk : k ∈ keysOf m := by
        simp only [keysOf, List.map_cons, List.mem_cons] at h
        rcases h with h | h
        · exact absurd h.symm hp
        · exact h
      have hb : (k == p.1) = false := by simp; exact fun h => hp h.symm
      have := ih hk
      simp only [setCount] at this
      simp [setCount, hp, List.lookup, hb, this]

/-- Renaming of a list of columns, all read. -/
def dedupeAll : List (Bytes × Nat) → List Bytes → Option (List Bytes)
  | _, [] => some []
  | m, n :: ns =>
    match dedupeName (m.length + 1) m n with
    | none => none
    | some (n', m') => (dedupeAll m' ns).map (n' :: ·)

theorem dedupe_same (X : Bytes) : ∀ (n k : Nat) (m : List (Bytes × Nat)), 0 < k →
    m.lookup X = some k → (∀ x ∈ keysOf m, x = X ∨ ∃ j, j < k ∧ x = X ++ 95 :: decimal j) →
    dedupeAll m (List.replicate n X) = some ((List.range' k n).map (fun j => X ++ 95 :: decimal j))
  | 0, k, m, _, _, _ => by simp [dedupeAll]
  | n + 1, k, m, hk, hX, hks => by
    have hin : X ∈ keysOf m := by
      apply Classical.byContradiction
      intro hn
      rw [(lookup_none_iff m X).2 hn] at hX; simp at hX
    have hne : X ++ 95 :: decimal k ≠ X := by
      intro h
      have := congrArg List.length h
      simp at this
    have hfresh : X ++ 95 :: decimal k ∉ keysOf m := by
      intro h
      rcases hks _ h with h | ⟨j, hj, h⟩
      · exact hne h
      · have := List.append_cancel_left h
        simp only [List.cons.injEq, true_and] at this
        have := decimal_inj this
        omega
    have hstep : dedupeName (m.length + 1) m X =
        some (X ++ 95 :: decimal k, (X ++ 95 :: decimal k, 1) :: setCount m X (k + 1)) := by
      have hlen : m.length + 1 = (m.length - 1 + 1) + 1 := by
        cases m with
        | nil => simp [keysOf] at hin
        | cons p m => simp
      rw [hlen]
      unfold dedupeName
      rw [hX]
      simp only
      unfold dedupeName
      rw [(lookup_none_iff _ _).2 (by rw [keysOf_setCount]; exact hfresh)]
    rw [List.replicate_succ, dedupeAll, hstep]
    simp only
    rw [dedupe_same X n (k + 1) _ (by omega)
      (by rw [lookup_cons_ne _ _ _ _ (Ne.symm hne)]; exact lookup_setCount_self m X (k + 1) hin)
      (by
        intro x hx
        simp only [keysOf, List.map_cons, List.mem_cons] at hx
        rcases hx with hx | hx
        · exact Or.inr ⟨k, by omega, hx⟩
        · have hx : x ∈ keysOf (setCount m X (k + 1)) := hx
          rw [keysOf_setCount] at hx
          rcases hks x hx with h | ⟨j, hj, h⟩
          · exact Or.inl h
          · exact Or.inr ⟨j, by omega, h⟩)]
    simp [List.range'_succ]

theorem initLoop_dedupeAll (o : CsvOpts) (hd : o.dedupe = true) (hi : o.useIndices = []) (hc : o.useColumns = [])
    (batch : Nat) : ∀ (ns : List Bytes) (ts : List DataType) (i : Nat) (m : List (Bytes × Nat)) (as : List Attr)
    (fl : List Bool × List (Option DataType)) (out : List Bytes),
    ns.length = ts.length → initLoop o batch i ns ts m = (.ok as, fl) → dedupeAll m ns = some out →
    as.map Attr.name = out
  | [], [], i, m, as, fl, out, _, h, h' => by
    simp [initLoop] at h
    simp [dedupeAll] at h'
    obtain ⟨rfl, _⟩ := h
    subst h'
    rfl
  | [], _ :: _, _, _, _, _, _, h, _, _ => by simp at h
  | _ :: _, [], _, _, _, _, _, h, _, _ => by simp at h
  | n :: ns, t :: ts, i, m, as, fl, out, hl, h, h' => by
    have hl : ns.length = ts.length := by simpa using hl
    have hs : shouldSkip o i n = false := by simp [shouldSkip, hi, hc]
    unfold initLoop at h
    rw [if_neg (by simp [hs]), if_pos hd] at h
    unfold dedupeAll at h'
    cases hdn : dedupeName (m.length + 1) m n with
    | none => rw [hdn] at h'; simp at h'
    | some x =>
      obtain ⟨n', m'⟩ := x
      rw [hdn] at h h'
      simp only [makeAttr_column] at h
      dsimp only at h'
      cases ho : dedupeAll m' ns with
      | none => rw [ho] at h'; simp at h'
      | some out' =>
        rw [ho] at h'
        simp only [Option.map_some, Option.some.injEq] at h'
        rcases hr : initLoop o batch (i + 1) ns ts m' with ⟨r, ig, ps⟩
        rw [hr] at h
        cases r with
        | err e => simp at h
        | ub e => simp at h
        | ok as' =>
          simp only [Prod.mk.injEq, Res.ok.injEq] at h
          have := initLoop_dedupeAll o hd hi hc batch ns ts (i + 1) m' as' (ig, ps) out' hl hr ho
          rw [← h.1, ← h', List.map_cons, this]
          rfl

/-! ## Overrides -/

theorem lookup_eraseKey {κ β : Type} [BEq κ] [LawfulBEq κ] (m : List (κ × β)) (k j : κ) :
    (eraseKey m k).lookup j = if j == k then none else m.lookup j := by
  induction m with
  | nil => simp [eraseKey, List.lookup]
  | cons p m ih =>
    by_cases hp : p.1 = k
    · have : eraseKey (p :: m) k = eraseKey m k := by simp [eraseKey, hp]
      rw [this, ih]
      by_cases hj : j = k
      · simp [hj]
      · have : (j == p.1) = false := by simp [hp, hj]
        simp [hj, List.lookup, this]
    · have : eraseKey (p :: m) k = p :: eraseKey m k := by simp [eraseKey, hp]
      rw [this]
      by_cases hj : j = p.1
      · subst hj; simp [List.lookup, hp]
      · have hb : (j == p.1) = false := by simpa using hj
        simp only [List.lookup, hb]
        exact ih

theorem lookup_none_of {κ β : Type} [BEq κ] [LawfulBEq κ] (m : List (κ × β)) (k : κ) (h : m.lookup k = none) :
    ∀ p ∈ m, p.1 ≠ k := by
  intro p hp
  have := List.lookup_eq_none_iff.1 h p hp
  simp at this
  exact fun h => this h.symm

theorem overrideLoop_spec {κ : Type} [BEq κ] [LawfulBEq κ] : ∀ (ks : List κ) (ts : List DataType) (m : List (κ × DataType)),
    ks.length = ts.length →
    (overrideLoop ks ts m).2 = m.filter (fun p => p.1 ∉ ks) ∧
    (overrideLoop ks ts m).1.length = ts.length ∧
    ∀ (i : Nat) (k : κ) (t : DataType), ks[i]? = some k → ts[i]? = some t →
      (overrideLoop ks ts m).1[i]? = some ((if k ∈ ks.take i then none else m.lookup k).getD t)
  | [], [], m, _ => by
    refine ⟨?_, rfl, by simp⟩
    simp only [overrideLoop, List.not_mem_nil, not_false_eq_true, decide_true]
    exact (List.filter_eq_self.2 (by simp)).symm
  | [], _ :: _, _, h => by simp at h
  | _ :: _, [], _, h => by simp at h
  | k :: ks, t :: ts, m, hl => by
    have hl : ks.length = ts.length := by simpa using hl
    unfold overrideLoop
    cases hk : m.lookup k with
    | some d =>
      obtain ⟨h1, h2, h3⟩ := overrideLoop_spec ks ts (eraseKey m k) hl
      refine ⟨?_, by simp [h2], ?_⟩
      · dsimp only
        rw [h1]
        simp only [eraseKey, List.filter_filter]
        apply List.filter_congr
        intro p _
        by_cases hp : p.1 = k <;> simp [hp]
      · intro i k' t' hi ht
        cases i with
        | zero =>
          simp only [List.getElem?_cons_zero, Option.some.injEq] at hi ht
          subst hi; subst ht
          simp [hk]
        | succ i =>
          simp only [List.getElem?_cons_succ] at hi ht
          have := h3 i k' t' hi ht
          simp only [List.getElem?_cons_succ, this, lookup_eraseKey, List.take_succ_cons, List.mem_cons]
          by_cases hkk : k' = k
          · simp [hkk]
          · simp [hkk]
    | none =>
      obtain ⟨h1, h2, h3⟩ := overrideLoop_spec ks ts m hl
      refine ⟨?_, by simp [h2], ?_⟩
      · simp only [h1]
        apply List.filter_congr
        intro p hp
        have := lookup_none_of m k hk p hp
        simp [this]
      · intro i k' t' hi ht
        cases i with
        | zero =>
          simp only [List.getElem?_cons_zero, Option.some.injEq] at hi ht
          subst hi; subst ht
          simp [hk]
        | succ i =>
          simp only [List.getElem?_cons_succ] at hi ht
          have := h3 i k' t' hi ht
          simp only [List.getElem?_cons_succ, this, List.take_succ_cons, List.mem_cons]
          by_cases hkk : k' = k
          · subst hkk; simp [hk]
          · simp [hkk]

theorem applyOverrides_spec (o : CsvOpts) (s : CsvState) (hl : s.names.length = s.types.length) :
    (OverridesMatch o s.names → ∃ ts, applyOverrides o s = (.ok (), { s with types := ts }) ∧
      ts.length = s.types.length ∧
      ∀ (i : Nat) (n : Bytes) (t : DataType), s.names[i]? = some n → s.types[i]? = some t →
        ts[i]? = some ((if n ∈ s.names.take i then none else o.types.lookup n).getD
          ((o.typesByIndex.lookup i).getD t))) ∧
    (¬ OverridesMatch o s.names → ∃ ts, applyOverrides o s = (.err .invalidArgument, { s with types := ts }) ∧
      ts.length = s.types.length) := by
  obtain ⟨a1, a2, a3⟩ := overrideLoop_spec (List.range s.names.length) s.types o.typesByIndex (by simp [hl])
  obtain ⟨b1, b2, b3⟩ := overrideLoop_spec s.names (overrideLoop (List.range s.names.length) s.types o.typesByIndex).1
    o.types (by rw [a2]; exact hl)
  have hidx : ((overrideLoop (List.range s.names.length) s.types o.typesByIndex).2.isEmpty = true) ↔
      ∀ p ∈ o.typesByIndex, p.1 < s.names.length := by
    rw [a1, List.isEmpty_iff, List.filter_eq_nil_iff]
    simp
  have hnm : ((overrideLoop s.names (overrideLoop (List.range s.names.length) s.types o.typesByIndex).1
      o.types).2.isEmpty = true) ↔ ∀ p ∈ o.types, p.1 ∈ s.names := by
    rw [b1, List.isEmpty_iff, List.filter_eq_nil_iff]
    simp
  unfold applyOverrides
  dsimp only
  refine ⟨?_, ?_⟩
  · intro hm
    have e1 := hidx.2 hm.1
    have e2 := hnm.2 hm.2
    refine ⟨(overrideLoop s.names (overrideLoop (List.range s.names.length) s.types o.typesByIndex).1 o.types).1, ?_, ?_, ?_⟩
    · rw [if_neg (by simp only [Bool.not_eq_true', e1]; decide), if_neg (by simp only [Bool.not_eq_true', e2]; decide)]
    · rw [b2, a2]
    · intro i n t hn ht
      have hi : i < s.names.length := (List.getElem?_eq_some_iff.1 hn).1
      have h1 := a3 i i t (by simp [hi]) ht
      have hni : i ∉ (List.range s.names.length).take i := by
        rw [List.take_range]
        simp
        omega
      rw [if_neg hni] at h1
      exact b3 i n _ hn h1
  · intro hm
    by_cases e1 : (overrideLoop (List.range s.names.length) s.types o.typesByIndex).2.isEmpty = true
    · have e2 : ¬ (overrideLoop s.names (overrideLoop (List.range s.names.length) s.types o.typesByIndex).1
        o.types).2.isEmpty = true := fun e2 => hm ⟨hidx.1 e1, hnm.1 e2⟩
      refine ⟨(overrideLoop s.names (overrideLoop (List.range s.names.length) s.types o.typesByIndex).1 o.types).1, ?_, ?_⟩
      · rw [if_neg (by simp only [Bool.not_eq_true', e1]; decide),
          if_pos (by simp only [Bool.not_eq_true']; simpa using e2)]
      · rw [b2, a2]
    · refine ⟨(overrideLoop (List.range s.names.length) s.types o.typesByIndex).1, ?_, a2⟩
      rw [if_pos (by simp only [Bool.not_eq_true']; simpa using e1)]

theorem applyOverrides_nodup (o : CsvOpts) (s : CsvState) (hl : s.names.length = s.types.length)
    (hn : s.names.Nodup) (hm : OverridesMatch o s.names) :
    applyOverrides o s = (.ok (), { s with types := overriddenTypes o s.names s.types }) := by
  obtain ⟨ts, h1, h2, h3⟩ := (applyOverrides_spec o s hl).1 hm
  rw [h1]
  have : ts = overriddenTypes o s.names s.types := by
    apply List.ext_getElem?
    intro i
    by_cases hi : i < s.types.length
    · have hni : i < s.names.length := by omega
      have := h3 i s.names[i] s.types[i] (by simp [hni]) (by simp [hi])
      rw [this]
      have hnot : s.names[i] ∉ s.names.take i := by
        intro hmem
        obtain ⟨j, hj, he⟩ := List.mem_iff_getElem.1 hmem
        simp only [List.length_take] at hj
        rw [List.getElem_take] at he
        exact List.pairwise_iff_getElem.1 hn j i (by omega) hni (by omega) he
      rw [if_neg hnot]
      have hz : (s.names.zip s.types)[i]? = some (s.names[i], s.types[i]) := by
        rw [List.getElem?_eq_getElem (by simp; omega), List.getElem_zip]
      simp [overriddenTypes, overridden, hz]
    · rw [List.getElem?_eq_none (by omega), List.getElem?_eq_none]
      simp [overriddenTypes]
      omega
  rw [this]

theorem tokenize_ne_nil (p : TokParams) (row : Bytes) (h : (tokenize p row).2 = .ok ()) : (tokenize p row).1 ≠ [] := by
  rw [tokenize_eq, fieldsFrom] at h ⊢
  split at h
  · simp
  · simp at h
  · simp

theorem inferSchema_of (F64 : FloatLib) (o : CsvOpts) (batch : Nat) (s : CsvState) (row : Bytes)
    (hne : s.names ≠ []) (hty : s.types = []) (hok : (tokenize o.tok row).2 = .ok ())
    (hlen : (tokenize o.tok row).1.length = s.names.length)
    (ts : List DataType)
    (hov : applyOverrides o { s with types := rowTypes F64 o row } = (.ok (), { s with types := ts })) :
    inferSchema F64 o batch s (some row) =
      match makeCsvSchema o batch { s with types := ts } with
      | (.ok sch, s4) => (.ok (some sch), s4)
      | (.err e, s4) => (.err e, s4)
      | (.ub w, s4) => (.ub w, s4) := by
  unfold inferSchema
  rw [if_neg (by simp)]
  have h1 : inferColumnTypes F64 o s (some row) = (.ok (), { s with types := rowTypes F64 o row }) := by
    unfold inferColumnTypes
    simp only [hok, hty, List.nil_append]
    rfl
  have h2 : setOrValidateNames o { s with types := rowTypes F64 o row } (some row) =
      (.ok (), { s with types := rowTypes F64 o row }) := by
    unfold setOrValidateNames
    rw [if_neg (by simpa using hne), if_neg (by simp [rowTypes, hlen])]
  rw [h1]
  simp only [h2, hov]
  rcases makeCsvSchema o batch { s with types := ts } with ⟨_ | _ | _, _⟩ <;> rfl

/-! ## Header -/

theorem skipToHeader_yields (rm : Machine Record) : ∀ (h : Nat) (r : rm.σ) (xs : List Record),
    rm.Yields r xs (.ok none) → ∃ r', skipToHeader rm h r = (.ok (), r') ∧ rm.Yields r' (xs.drop h) (.ok none)
  | 0, r, xs, hy => ⟨r, rfl, by simpa using hy⟩
  | h + 1, r, [], hy => by
    obtain ⟨r', e, hy'⟩ := hy.read_nil
    exact ⟨r', by simp [skipToHeader, e], by simpa using hy'⟩
  | h + 1, r, x :: xs, hy => by
    obtain ⟨r', e, hy'⟩ := hy.read_cons
    obtain ⟨r'', e', hy''⟩ := skipToHeader_yields rm h r' xs hy'
    exact ⟨r'', by simp [skipToHeader, e, e'], by simpa using hy''⟩

theorem discardHeader_yields (rm : Machine Record) (h : Nat) (r : rm.σ) (xs : List Record)
    (hy : rm.Yields r xs (.ok none)) :
    ∃ r', discardHeader rm h r = (.ok (), r') ∧ rm.Yields r' (xs.drop (h + 1)) (.ok none) := by
  obtain ⟨r1, e1, hy1⟩ := skipToHeader_yields rm h r xs hy
  unfold discardHeader
  rw [e1]
  cases hd : xs.drop h with
  | nil =>
    rw [hd] at hy1
    obtain ⟨r2, e2, hy2⟩ := hy1.read_nil
    refine ⟨r2, by simp [e2], ?_⟩
    have : xs.drop (h + 1) = [] := by
      rw [List.drop_eq_nil_iff] at hd ⊢; omega
    rw [this]; exact hy2
  | cons x ys =>
    rw [hd] at hy1
    obtain ⟨r2, e2, hy2⟩ := hy1.read_cons
    refine ⟨r2, by simp [e2], ?_⟩
    have : xs.drop (h + 1) = ys := by
      rw [← List.drop_drop, hd]; rfl
    rw [this]; exact hy2

theorem readNames_yields (o : CsvOpts) (rm : Machine Record) (h : Nat) (s : CsvState) (r : rm.σ) (xs : List Record)
    (hy : rm.Yields r xs (.ok none)) (hok : HeaderOk o h xs) (hn : s.names = []) :
    ∃ r', readNames o rm h s r =
        (.ok (), r', { s with names := match xs[h]? with | none => [] | some hdr => headerNames o hdr }) ∧
      rm.Yields r' (xs.drop (h + 1)) (.ok none) := by
  obtain ⟨r1, e1, hy1⟩ := skipToHeader_yields rm h r xs hy
  unfold readNames
  rw [e1]
  cases hd : xs.drop h with
  | nil =>
    rw [hd] at hy1
    obtain ⟨r2, e2, hy2⟩ := hy1.read_nil
    have hh : xs[h]? = none := by
      rw [List.drop_eq_nil_iff] at hd; simp; omega
    refine ⟨r2, ?_, ?_⟩
    · simp only [e2, hh]
      rw [← hn]
    · have : xs.drop (h + 1) = [] := by
        rw [List.drop_eq_nil_iff] at hd ⊢; omega
      rw [this]; exact hy2
  | cons x ys =>
    rw [hd] at hy1
    obtain ⟨r2, e2, hy2⟩ := hy1.read_cons
    have hh : xs[h]? = some x := by
      have := congrArg (·[0]?) hd
      simpa using this
    have ht := hok x hh
    refine ⟨r2, ?_, ?_⟩
    · simp only [e2, hh]
      have hne := tokenize_ne_nil o.tok x.payload ht
      have : namesFromRow o s x.payload = (.ok (), { s with names := headerNames o x }) := by
        unfold namesFromRow
        simp only [ht, hn, List.nil_append]
        rw [if_neg (by simpa using hne)]
        rfl
      simp only [this]
    · have : xs.drop (h + 1) = ys := by
        rw [← List.drop_drop, hd]; rfl
      rw [this]; exact hy2

/-- What `make_record_reader` does for a store without read errors. -/
theorem makeRecordReader_yields (o : CsvOpts) (rm : Machine Record) (h : Nat) (ho : o.headerRow = some h)
    (s : CsvState) (r : rm.σ) (xs : List Record)
    (hy : rm.Yields r xs (.ok none)) (hok : HeaderOk o h xs) :
    ∃ r' s', makeRecordReader o rm s (.ok r) = (.ok r', s') ∧ s'.readHeader = false ∧
      (s.names ≠ [] → s'.names = s.names) ∧
      (s.names = [] → s'.names = match xs[h]? with | none => [] | some hdr => headerNames o hdr) ∧
      rm.Yields r' (if s.names = [] ∨ s.readHeader = true ∨ o.singleHeader = false then xs.drop (h + 1) else xs)
        (.ok none) := by
  unfold makeRecordReader
  simp only [ho]
  by_cases hn : s.names = []
  · obtain ⟨r', e, hy'⟩ := readNames_yields o rm h s r xs hy hok hn
    rw [if_pos (by simpa using hn), e]
    refine ⟨r', _, rfl, rfl, fun h => absurd hn h, fun _ => rfl, ?_⟩
    rw [if_pos (Or.inl hn)]; exact hy'
  · rw [if_neg (by simpa using hn)]
    by_cases hc : s.readHeader = true ∨ o.singleHeader = false
    · obtain ⟨r', e, hy'⟩ := discardHeader_yields rm h r xs hy
      rw [if_pos (by simpa using hc), e]
      refine ⟨r', _, rfl, rfl, fun _ => rfl, fun h => absurd h hn, ?_⟩
      rw [if_pos (Or.inr hc)]; exact hy'
    · rw [if_neg (by simpa using hc)]
      refine ⟨r, _, rfl, rfl, fun _ => rfl, fun h => absurd h hn, ?_⟩
      rw [if_neg (by rintro (h | h); exact hn h; exact hc h)]; exact hy

theorem Holds.take (rm : Machine Record) : ∀ (n : Nat) (rs : List rm.σ) (xss : List (List Record)),
    Holds rm rs xss → Holds rm (rs.take n) (xss.take n)
  | 0, _, _, _ => by simp [Holds]
  | n + 1, [], [], h => by simp [Holds]
  | n + 1, r :: rs, xs :: xss, h => ⟨h.1, Holds.take rm n rs xss h.2⟩
  | _ + 1, [], _ :: _, h => h.elim
  | _ + 1, _ :: _, [], h => h.elim

/-- Opening the stores one after another, for a header in every store. -/
theorem openAll_every (o : CsvOpts) (rm : Machine Record) (h : Nat) (ho : o.headerRow = some h)
    (hs : o.singleHeader = false) : ∀ (rs : List rm.σ) (xss : List (List Record)) (s : CsvState),
    Holds rm rs xss → (∀ xs ∈ xss, HeaderOk o h xs) →
    ∃ rs', (openAll o rm s (rs.map .ok)).1 = rs'.map .ok ∧ Holds rm rs' (xss.map (·.drop (h + 1)))
  | [], [], s, _, _ => ⟨[], rfl, trivial⟩
  | r :: rs, xs :: xss, s, hh, hok => by
    obtain ⟨r', s', e, _, _, _, hy⟩ := makeRecordReader_yields o rm h ho s r xs hh.1 (hok xs (by simp))
    obtain ⟨rs', e', hh'⟩ := openAll_every o rm h ho hs rs xss s' hh.2 (fun x hx => hok x (by simp [hx]))
    refine ⟨r' :: rs', ?_, ?_, hh'⟩
    · simp only [List.map_cons, openAll, e]
      rw [← e']
    · rw [if_pos (Or.inr (Or.inr hs))] at hy; exact hy
  | [], _ :: _, _, h, _ => h.elim
  | _ :: _, [], _, h, _ => h.elim

theorem openAll_names (o : CsvOpts) (rm : Machine Record) (h : Nat) (ho : o.headerRow = some h) :
    ∀ (rs : List rm.σ) (xss : List (List Record)) (s : CsvState),
    Holds rm rs xss → (∀ xs ∈ xss, HeaderOk o h xs) → s.names ≠ [] →
    (openAll o rm s (rs.map .ok)).2.names = s.names
  | [], [], s, _, _, _ => rfl
  | r :: rs, xs :: xss, s, hh, hok, hn => by
    obtain ⟨r', s', e, _, h1, _, _⟩ := makeRecordReader_yields o rm h ho s r xs hh.1 (hok xs (by simp))
    have := openAll_names o rm h ho rs xss s' hh.2 (fun x hx => hok x (by simp [hx])) (by rw [h1 hn]; exact hn)
    simp only [List.map_cons, openAll, e]
    rw [this, h1 hn]
  | [], _ :: _, _, h, _, _ => h.elim
  | _ :: _, [], _, h, _, _ => h.elim

/-- Opening the stores after the first one, for a single header. -/
theorem openAll_rest (o : CsvOpts) (rm : Machine Record) (h : Nat) (ho : o.headerRow = some h)
    (hs : o.singleHeader = true) : ∀ (rs : List rm.σ) (xss : List (List Record)) (s : CsvState),
    Holds rm rs xss → (∀ xs ∈ xss, HeaderOk o h xs) → s.names ≠ [] → s.readHeader = false →
    ∃ rs', (openAll o rm s (rs.map .ok)).1 = rs'.map .ok ∧ Holds rm rs' xss
  | [], [], s, _, _, _, _ => ⟨[], rfl, trivial⟩
  | r :: rs, xs :: xss, s, hh, hok, hn, hr => by
    obtain ⟨r', s', e, h0, h1, _, hy⟩ := makeRecordReader_yields o rm h ho s r xs hh.1 (hok xs (by simp))
    obtain ⟨rs', e', hh'⟩ := openAll_rest o rm h ho hs rs xss s' hh.2 (fun x hx => hok x (by simp [hx]))
      (by rw [h1 hn]; exact hn) h0
    refine ⟨r' :: rs', ?_, ?_, hh'⟩
    · simp only [List.map_cons, openAll, e]
      rw [← e']
    · rw [if_neg (by rintro (h | h | h); exact hn h; simp [hr] at h; simp [hs] at h)] at hy; exact hy
  | [], _ :: _, _, h, _, _, _ => h.elim
  | _ :: _, [], _, h, _, _, _ => h.elim

theorem headerNames_ne_nil (o : CsvOpts) (hdr : Record) (h : (tokenize o.tok hdr.payload).2 = .ok ()) :
    headerNames o hdr ≠ [] := by
  simpa [headerNames] using tokenize_ne_nil o.tok hdr.payload h

theorem openAll_single (o : CsvOpts) (rm : Machine Record) (h : Nat) (ho : o.headerRow = some h)
    (hs : o.singleHeader = true) (r : rm.σ) (rs : List rm.σ) (xs : List Record) (xss : List (List Record))
    (s : CsvState) (hh : Holds rm (r :: rs) (xs :: xss)) (hok : ∀ x ∈ xs :: xss, HeaderOk o h x)
    (hn : s.names ≠ [] ∨ h < xs.length) (hr : s.readHeader = true) :
    ∃ rs', (openAll o rm s ((r :: rs).map .ok)).1 = rs'.map .ok ∧ Holds rm rs' (xs.drop (h + 1) :: xss) := by
  obtain ⟨r', s', e, h0, h1, h2, hy⟩ := makeRecordReader_yields o rm h ho s r xs hh.1 (hok xs (by simp))
  have hn' : s'.names ≠ [] := by
    by_cases hc : s.names = []
    · have hlt : h < xs.length := by
        rcases hn with hn | hn
        · exact absurd hc hn
        · exact hn
      have hx : xs[h]? = some xs[h] := by simp [hlt]
      rw [h2 hc, hx]
      exact headerNames_ne_nil o _ (hok xs (by simp) _ hx)
    · rw [h1 hc]; exact hc
  obtain ⟨rs', e', hh'⟩ := openAll_rest o rm h ho hs rs xss s' hh.2 (fun x hx => hok x (by simp [hx])) hn' h0
  refine ⟨r' :: rs', ?_, ?_, hh'⟩
  · simp only [List.map_cons, openAll, e]
    rw [← e']
  · rw [if_pos (Or.inr (Or.inl hr))] at hy; exact hy

theorem afterEpochs_inv (o : CsvOpts) (rm : Machine Record) (h : Nat) (ho : o.headerRow = some h)
    (rs : List rm.σ) (xss : List (List Record)) (hh : Holds rm rs xss) (hok : ∀ x ∈ xss, HeaderOk o h x) :
    ∀ (ns : List Nat) (s : CsvState), s.readHeader = true →
    (afterEpochs o rm (rs.map .ok) s ns).readHeader = true ∧
    (s.names ≠ [] → (afterEpochs o rm (rs.map .ok) s ns).names ≠ [])
  | [], s, hr => ⟨hr, id⟩
  | n :: ns, s, hr => by
    unfold afterEpochs
    obtain ⟨h1, h2⟩ := afterEpochs_inv o rm h ho rs xss hh hok ns
      (openAll o rm s ((rs.map .ok).take n)).2.reset rfl
    refine ⟨h1, fun hn => h2 ?_⟩
    rw [← List.map_take]
    have := openAll_names o rm h ho (rs.take n) (xss.take n) s (Holds.take rm n rs xss hh)
      (fun x hx => hok x (List.mem_of_mem_take hx)) hn
    simp only [CsvState.reset]
    rw [this]
    exact hn

theorem openAll_none (o : CsvOpts) (rm : Machine Record) (ho : o.headerRow = none) :
    ∀ (rs : List rm.σ) (s : CsvState), (openAll o rm s (rs.map .ok)).1 = rs.map .ok
  | [], s => rfl
  | r :: rs, s => by
    have := openAll_none o rm ho rs s
    simp only [List.map_cons, openAll, makeRecordReader, ho]
    rw [this]

/-! ## Repeated inference -/

theorem inferSchema_late (F64 : FloatLib) (o : CsvOpts) (batch : Nat) (s : CsvState) (row : Bytes)
    (hne : s.names ≠ []) (hlen : s.names.length ≤ s.types.length) :
    ∃ s', inferSchema F64 o batch s (some row) = (.err .schemaError, s') ∧ s'.names = s.names ∧
      s.types.length ≤ s'.types.length := by
  unfold inferSchema
  rw [if_neg (by simp)]
  unfold inferColumnTypes
  cases ht : (tokenize o.tok row).2 with
  | ub w => exact absurd ht (tokenize_no_ub _ _ _)
  | err e =>
    have := tokenize_err _ _ _ ht
    subst this
    refine ⟨{ s with types := s.types ++ rowTypes F64 o row }, ?_, rfl, by simp⟩
    simp only [ht]
    rfl
  | ok u =>
    have hpos : 0 < (tokenize o.tok row).1.length := List.length_pos_iff.2 (tokenize_ne_nil _ _ ht)
    refine ⟨{ s with types := s.types ++ rowTypes F64 o row }, ?_, rfl, by simp⟩
    simp only [ht]
    unfold setOrValidateNames
    rw [if_neg (by simpa using hne), if_pos (by simp; omega)]
    rfl

theorem inferAttempts_late (F64 : FloatLib) (o : CsvOpts) (batch : Nat) (row : Bytes) :
    ∀ (n : Nat) (s : CsvState), s.names ≠ [] → s.names.length ≤ s.types.length →
    inferAttempts F64 o batch (some row) n s = List.replicate n (.err .schemaError)
  | 0, s, _, _ => rfl
  | n + 1, s, hne, hlen => by
    obtain ⟨s', h1, h2, h3⟩ := inferSchema_late F64 o batch s row hne hlen
    unfold inferAttempts
    rw [h1]
    simp only
    rw [inferAttempts_late F64 o batch row n s' (by rw [h2]; exact hne) (by rw [h2]; omega), List.replicate_succ]

end Mlio
