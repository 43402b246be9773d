import Verif.Proofs.Instances
import Verif.Spec.CoreReader

namespace Mlio
open Spec Machine

variable {rm : Machine Record}

/-- No content in front of position `n` stops the reader. -/
def Past (cs : List Content) (n : Nat) : Prop := ∀ (j : Nat) (c : Content), cs[j]? = some c → j < n → c.stops = false

theorem Past.next {cs : List Content} {n : Nat} (h : Past cs n) {c : Content} (hc : cs[n]? = some c) (hs : c.stops = false) :
    Past cs (n + 1) := by
  intro j c' hj hlt
  by_cases hjn : j = n
  · subst hjn
    rw [hc] at hj
    cases hj
    exact hs
  · exact h j c' hj (by omega)

theorem Spec.FitsAll.lt {stores : List (Res (Option rm.σ))} {cs : List Content} (hf : FitsAll rm stores cs) {n : Nat}
    (hp : Past cs n) (hn : n < stores.length) : n < cs.length := by
  rcases hf.1 with h | ⟨_, c, hc, hs⟩
  · omega
  · apply Classical.byContradiction
    intro hle
    obtain ⟨j, hj⟩ := List.mem_iff_getElem?.1 hc
    have := hp j c hj (by have := (List.getElem?_eq_some_iff.1 hj).1; omega)
    rw [hs] at this
    cases this

theorem Spec.FitsAll.le {stores : List (Res (Option rm.σ))} {cs : List Content} (hf : FitsAll rm stores cs) :
    cs.length ≤ stores.length := by
  rcases hf.1 with h | ⟨h, _⟩ <;> omega

/-- What is left to read in state `s`. -/
def Left (cs : List Content) (s : CoreState rm.σ) (its : List (Nat × Item)) (stop : Stop) : Prop :=
  match s.rr with
  | none => Past cs s.iter ∧ (its, stop) = items s.iter (cs.drop s.iter)
  | some r => ∃ (rs : List Record) (k : Nat), s.store = some k ∧ (rs ≠ [] → k < s.iter) ∧
      ((rm.Yields r rs (.ok none) ∧ Past cs s.iter ∧ its = rs.map (fun r => (k, Item.part r)) ++ (items s.iter (cs.drop s.iter)).1 ∧
          stop = (items s.iter (cs.drop s.iter)).2) ∨
       (∃ e, rm.Yields r rs (.err e) ∧ its = rs.map (fun r => (k, Item.part r)) ∧ stop = .fail e))

/-- The instance index of the current store. -/
def Idx (seen : List Nat) (s : CoreState rm.σ) : Prop :=
  (∀ k ∈ seen, k < s.iter) ∧ (s.rr.isSome → ∀ k, s.store = some k → s.instIdx = seen.count k)

/-- What `read_record` does when `its` and `stop` are left. -/
def RecOk (cs : List Content) (seen : List Nat) (its : List (Nat × Item)) (stop : Stop)
    (c : Bool) (o : Res (Option Record)) (s' : CoreState rm.σ) : Prop :=
  s'.corrupt = c ∧
  match its with
  | (k, .part r) :: rest => o = .ok (some r) ∧ s'.store = some k ∧ s'.rr.isSome ∧ k < s'.iter ∧
      Left cs s' rest stop ∧ Idx seen s'
  | (k, .whole) :: rest => o = .ok none ∧ s'.store = some k ∧ s'.rr = none ∧ k < s'.iter ∧
      Left cs s' rest stop ∧ Idx seen s'
  | [] =>
    match stop with
    | .eof => o = .ok none ∧ s'.store = none ∧ Left cs s' [] .eof ∧ Idx seen s'
    | .fail e => o = .err e ∧ s'.store ≠ none ∧ Left cs s' [] (.fail e) ∧ Idx seen s'

theorem count_zero_of_lt {seen : List Nat} {n : Nat} (h : ∀ k ∈ seen, k < n) : seen.count n = 0 := by
  rw [List.count_eq_zero]
  intro hm
  have := h n hm
  omega

/-- Moving to the next store. -/
theorem initNext_spec {stores : List (Res (Option rm.σ))} {cs : List Content} (hf : FitsAll rm stores cs)
    {s : CoreState rm.σ} {seen : List Nat} {its stop}
    (hseen : ∀ k ∈ seen, k < s.iter)
    (hrr : ∀ r, s.rr = some r → rm.Yields r [] (.ok none))
    (hpast : Past cs s.iter) (h : (its, stop) = items s.iter (cs.drop s.iter)) :
    (∃ s', initNext stores s = (.ok true, s') ∧ s'.iter = s.iter + 1 ∧ s.iter < stores.length ∧ s'.rr.isSome ∧
        s'.corrupt = s.corrupt ∧ s'.store = some s.iter ∧ Left cs s' its stop ∧ Idx seen s') ∨
    (∃ o s', ((initNext stores s = (.ok false, s') ∧ o = .ok none) ∨ ∃ e, initNext stores s = (.err e, s') ∧ o = .err e) ∧
        RecOk cs seen its stop s.corrupt o s') := by
  unfold initNext
  cases hs : stores[s.iter]? with
  | none =>
    right
    have hlen : stores.length ≤ s.iter := List.getElem?_eq_none_iff.1 hs
    have hd : cs.drop s.iter = [] := List.drop_eq_nil_of_le (Nat.le_trans hf.le hlen)
    rw [hd] at h
    simp only [items, Prod.mk.injEq] at h
    obtain ⟨rfl, rfl⟩ := h
    refine ⟨.ok none, _, Or.inl ⟨rfl, rfl⟩, rfl, rfl, rfl, ?_, ?_⟩
    · simp [Left, hd, items, hpast]
    · exact ⟨hseen, by simp⟩
  | some o =>
    have hlt : s.iter < stores.length := (List.getElem?_eq_some_iff.1 hs).1
    have hltc := hf.lt hpast hlt
    have hc : cs[s.iter]? = some (cs[s.iter]'hltc) :=
      List.getElem?_eq_getElem _
    have hfit := hf.2 _ _ _ hs hc
    have hdrop : cs.drop s.iter = cs[s.iter]'hltc :: cs.drop (s.iter + 1) :=
      List.drop_eq_getElem_cons _
    rw [hdrop] at h
    have hpn : (cs[s.iter]'hltc).stops = false → Past cs (s.iter + 1) := fun hs => hpast.next hc hs
    revert hfit h hdrop hpn
    generalize (cs[s.iter]'hltc) = c
    intro h hfit hdrop hpn
    have hidx : ∀ (f : Option rm.σ) c', Idx seen (⟨s.iter + 1, some s.iter, f, 0, 0, c'⟩ : CoreState rm.σ) := by
      intro f c'
      refine ⟨fun k hk => by have := hseen k hk; show k < s.iter + 1; omega, ?_⟩
      intro _ k hk
      simp only [Option.some.injEq] at hk
      subst hk
      exact (count_zero_of_lt hseen).symm
    match o, c, hfit, hdrop, h, hpn with
    | .ok none, .whole, _, hdrop, h, hpn =>
      right
      simp only [items, Prod.mk.injEq] at h
      obtain ⟨rfl, rfl⟩ := h
      refine ⟨.ok none, _, Or.inl ⟨rfl, rfl⟩, rfl, rfl, rfl, rfl, Nat.lt_succ_self _, ?_, hidx _ _⟩
      simp [Left, hpn rfl]
    | .ok (some r), .records rs none, hy, hdrop, h, hpn =>
      left
      simp only [items, Prod.mk.injEq] at h
      obtain ⟨rfl, rfl⟩ := h
      refine ⟨_, rfl, rfl, hlt, rfl, rfl, rfl, ?_, hidx _ _⟩
      exact ⟨rs, s.iter, rfl, fun _ => Nat.lt_succ_self _, Or.inl ⟨hy, hpn rfl, rfl, rfl⟩⟩
    | .ok (some r), .records rs (some e), hy, hdrop, h, hpn =>
      left
      simp only [items, Prod.mk.injEq] at h
      obtain ⟨rfl, rfl⟩ := h
      refine ⟨_, rfl, rfl, hlt, rfl, rfl, rfl, ?_, hidx _ _⟩
      exact ⟨rs, s.iter, rfl, fun _ => Nat.lt_succ_self _, Or.inr ⟨e, hy, rfl, rfl⟩⟩
    | .err e, .unreadable e', he, hdrop, h, _ =>
      right
      simp only [Fits] at he
      subst he
      simp only [items, Prod.mk.injEq] at h
      obtain ⟨rfl, rfl⟩ := h
      refine ⟨.err e, _, Or.inr ⟨e, rfl, rfl⟩, rfl, rfl, by simp, ?_, ?_⟩
      · unfold Left
        cases hr : s.rr with
        | none => exact ⟨hpast, by simp only [hdrop, items]⟩
        | some r =>
          refine ⟨[], s.iter, rfl, by simp, Or.inl ⟨hrr r hr, hpast, ?_, ?_⟩⟩ <;> simp only [hdrop, items] <;> rfl
      · refine ⟨hseen, ?_⟩
        intro _ k hk
        simp only [Option.some.injEq] at hk
        subst hk
        exact (count_zero_of_lt hseen).symm

theorem recLoop_spec {stores : List (Res (Option rm.σ))} {cs : List Content} (hf : FitsAll rm stores cs)
    (fuel : Nat) {s : CoreState rm.σ} {seen : List Nat} {its stop}
    (hfuel : stores.length - s.iter < fuel) (hrr : s.rr.isSome) (hl : Left cs s its stop) (hi : Idx seen s) :
    RecOk cs seen its stop s.corrupt (recLoop rm stores fuel s).1 (recLoop rm stores fuel s).2 := by
  induction fuel generalizing s its stop with
  | zero => omega
  | succ n ih =>
    obtain ⟨iter, store, rr, ii, ri, c⟩ := s
    simp only at hfuel
    cases rr with
    | none => simp at hrr
    | some r =>
    obtain ⟨rs, k, hst, hk, hcase⟩ := hl
    simp only at hst hk hcase
    subst hst
    have hidx : ∀ r', Idx seen (⟨iter, some k, some r', ii, ri + 1, c⟩ : CoreState rm.σ) :=
      fun r' => ⟨hi.1, fun _ => hi.2 rfl⟩
    cases rs with
    | cons x rs =>
      rcases hcase with ⟨hy, hpast, rfl, rfl⟩ | ⟨e, hy, rfl, rfl⟩
      · obtain ⟨r', er, hy'⟩ := hy.read_cons
        simp only [recLoop, er]
        exact ⟨rfl, rfl, rfl, rfl, hk (by simp), ⟨rs, k, rfl, fun _ => hk (by simp), Or.inl ⟨hy', hpast, rfl, rfl⟩⟩, hidx r'⟩
      · obtain ⟨r', er, hy'⟩ := hy.read_cons
        simp only [recLoop, er]
        exact ⟨rfl, rfl, rfl, rfl, hk (by simp), ⟨rs, k, rfl, fun _ => hk (by simp), Or.inr ⟨e, hy', rfl, rfl⟩⟩, hidx r'⟩
    | nil =>
      rcases hcase with ⟨hy, hpast, rfl, rfl⟩ | ⟨e, hy, rfl, rfl⟩
      · obtain ⟨r', er, hy'⟩ := hy.read_nil
        simp only [recLoop, er]
        have hin := initNext_spec hf (s := ⟨iter, some k, some r', ii, ri, c⟩) (seen := seen)
          (its := (items iter (cs.drop iter)).1) (stop := (items iter (cs.drop iter)).2) hi.1
          (by rintro r0 h0; simp only [Option.some.injEq] at h0; subst h0; exact hy') hpast rfl
        rcases hin with ⟨s', e1, e2, e3, e4, e5, e6, e7, e8⟩ | ⟨o, s', e1, e2⟩
        · rw [e1]
          simp only at e2 e3 e5
          have := ih (s := s') (by omega) e4 e7 e8
          rw [e5] at this
          exact this
        · rcases e1 with ⟨e1, rfl⟩ | ⟨e, e1, rfl⟩
          · rw [e1]; exact e2
          · rw [e1]; exact e2
      · obtain ⟨r', er, hy'⟩ := hy.read_nil
        simp only [recLoop, er]
        exact ⟨rfl, rfl, by simp, ⟨[], k, rfl, by simp, Or.inr ⟨e, hy', rfl, rfl⟩⟩, ⟨hi.1, fun _ => hi.2 rfl⟩⟩

theorem readRecord_spec {stores : List (Res (Option rm.σ))} {cs : List Content} (hf : FitsAll rm stores cs)
    {s : CoreState rm.σ} {seen : List Nat} {its stop} (hl : Left cs s its stop) (hi : Idx seen s) :
    RecOk cs seen its stop s.corrupt (readRecord rm stores s).1 (readRecord rm stores s).2 := by
  unfold readRecord
  cases hr : s.rr with
  | some r => exact recLoop_spec hf _ (by omega) (by simp [hr]) hl hi
  | none =>
    have hl' : Past cs s.iter ∧ (its, stop) = items s.iter (cs.drop s.iter) := by
      unfold Left at hl
      simpa only [hr] using hl
    rcases initNext_spec hf hi.1 (by simp [hr]) hl'.1 hl'.2 with ⟨s', e1, e2, e3, e4, e5, e6, e7, e8⟩ | ⟨o, s', e1, e2⟩
    · simp only [e1]
      have := recLoop_spec hf (stores.length + 1) (s := s') (by omega) e4 e7 e8
      rw [e5] at this
      exact this
    · rcases e1 with ⟨e1, rfl⟩ | ⟨e, e1, rfl⟩ <;> (simp only [e1]; exact e2)

/-! ### Instances -/

/-- The outcome after the last instance. -/
def endOutcome : End → Res (Option Inst)
  | .eof => .ok none
  | .fail e => if e.translated then .err .dataReader else .err e
  | .corruptSplit => .err .dataReader
  | .cutSplit => .ub "null data store"

/-- Middle parts in front of whatever is left. -/
theorem splitLoop_mids {stores : List (Res (Option rm.σ))} {cs : List Content} (hf : FitsAll rm stores cs)
    (mids : List (Nat × Bytes)) (fuel : Nat) {s : CoreState rm.σ} {seen : List Nat} {rest stop} (acc : List Bytes)
    (hl : Left cs s (mids.map (fun q => (q.1, Item.part ⟨2, q.2⟩)) ++ rest) stop) (hi : Idx seen s)
    (hs : s.store ≠ none) (hfuel : mids.length ≤ fuel) :
    ∃ s', splitLoop rm stores fuel s acc = splitLoop rm stores (fuel - mids.length) s' (acc ++ mids.map (·.2)) ∧
      Left cs s' rest stop ∧ Idx seen s' ∧ s'.corrupt = s.corrupt ∧ s'.store ≠ none := by
  induction mids generalizing fuel s acc with
  | nil => exact ⟨s, by simp, by simpa using hl, hi, rfl, hs⟩
  | cons q mids ih =>
    cases fuel with
    | zero => simp at hfuel
    | succ n =>
      obtain ⟨hc, ho, hst, -, -, hl', hi'⟩ := readRecord_spec hf hl hi
      obtain ⟨s', e, h1, h2, h3, h4⟩ := ih n (s := (readRecord rm stores s).2) (acc ++ [q.2]) hl' hi'
        (by rw [hst]; simp) (by simpa using hfuel)
      refine ⟨s', ?_, h1, h2, by rw [h3, hc], h4⟩
      have hrd : readRecord rm stores s = (.ok (some ⟨2, q.2⟩), (readRecord rm stores s).2) := by rw [← ho]
      rw [splitLoop, hrd]
      simp only [if_true, List.length_cons, Nat.add_sub_add_right, List.map_cons]
      rw [e]
      simp

/-- Permanent outcomes. -/
theorem yields_stuck {stores : List (Res (Option rm.σ))} {fuel : Nat} {t : Res (Option Inst)} (P : CoreState rm.σ → Prop)
    (h : ∀ s, P s → (coreRead rm stores fuel s).1 = t ∧ P (coreRead rm stores fuel s).2)
    (s : CoreState rm.σ) (hs : P s) : (coreReader rm stores fuel).Yields s [] t :=
  yields_of (m := coreReader rm stores fuel) (fun s xs => P s ∧ xs = []) t
    (by rintro s x xs ⟨-, h⟩; simp at h) (fun s h' => ⟨(h s h'.1).1, (h s h'.1).2, rfl⟩) s [] ⟨hs, rfl⟩

theorem yields_corrupt {stores : List (Res (Option rm.σ))} {fuel : Nat} (s : CoreState rm.σ)
    (hc : s.corrupt = true) (hs : s.store ≠ none) :
    (coreReader rm stores fuel).Yields s [] (.err .dataReader) := by
  refine yields_stuck (fun s => s.corrupt = true ∧ s.store ≠ none) ?_ s ⟨hc, hs⟩
  rintro ⟨it, st, rr, ii, ri, c⟩ ⟨hc, hs⟩
  simp only at hc hs
  subst hc
  cases st with
  | none => simp at hs
  | some k => simp [coreRead, readPayload, throwCorrupt, coreHandle, Err.translated]

theorem yields_cut {stores : List (Res (Option rm.σ))} {fuel : Nat} (s : CoreState rm.σ)
    (hc : s.corrupt = true) (hs : s.store = none) :
    (coreReader rm stores fuel).Yields s [] (.ub "null data store") := by
  refine yields_stuck (fun s => s.corrupt = true ∧ s.store = none) ?_ s ⟨hc, hs⟩
  rintro ⟨it, st, rr, ii, ri, c⟩ ⟨hc, hs⟩
  simp only at hc hs
  subst hc hs
  simp [coreRead, readPayload, throwCorrupt, coreHandle, Err.translated]

theorem readRecord_eof {stores : List (Res (Option rm.σ))} {cs : List Content} (hf : FitsAll rm stores cs)
    {s : CoreState rm.σ} {seen : List Nat} (hl : Left cs s [] .eof) (hi : Idx seen s) :
    ∃ s', readRecord rm stores s = (.ok none, s') ∧ s'.store = none ∧ Left cs s' [] .eof ∧ Idx seen s' ∧
      s'.corrupt = s.corrupt := by
  obtain ⟨hc, ho, hst, hl', hi'⟩ := readRecord_spec hf hl hi
  exact ⟨_, by rw [← ho], hst, hl', hi', hc⟩

theorem readRecord_fail {stores : List (Res (Option rm.σ))} {cs : List Content} (hf : FitsAll rm stores cs)
    {s : CoreState rm.σ} {seen : List Nat} {e : Err} (hl : Left cs s [] (.fail e)) (hi : Idx seen s) :
    ∃ s', readRecord rm stores s = (.err e, s') ∧ s'.store ≠ none ∧ Left cs s' [] (.fail e) ∧ Idx seen s' ∧
      s'.corrupt = s.corrupt := by
  obtain ⟨hc, ho, hst, hl', hi'⟩ := readRecord_spec hf hl hi
  exact ⟨_, by rw [← ho], hst, hl', hi', hc⟩

theorem readRecord_part {stores : List (Res (Option rm.σ))} {cs : List Content} (hf : FitsAll rm stores cs)
    {s : CoreState rm.σ} {seen : List Nat} {k r rest stop} (hl : Left cs s ((k, .part r) :: rest) stop) (hi : Idx seen s) :
    ∃ s', readRecord rm stores s = (.ok (some r), s') ∧ s'.store = some k ∧ s'.rr.isSome ∧ k < s'.iter ∧
      Left cs s' rest stop ∧ Idx seen s' ∧ s'.corrupt = s.corrupt := by
  obtain ⟨hc, ho, h1, h2, h3, hl', hi'⟩ := readRecord_spec hf hl hi
  exact ⟨_, by rw [← ho], h1, h2, h3, hl', hi', hc⟩

theorem readRecord_whole {stores : List (Res (Option rm.σ))} {cs : List Content} (hf : FitsAll rm stores cs)
    {s : CoreState rm.σ} {seen : List Nat} {k rest stop} (hl : Left cs s ((k, .whole) :: rest) stop) (hi : Idx seen s) :
    ∃ s', readRecord rm stores s = (.ok none, s') ∧ s'.store = some k ∧ s'.rr = none ∧ k < s'.iter ∧
      Left cs s' rest stop ∧ Idx seen s' ∧ s'.corrupt = s.corrupt := by
  obtain ⟨hc, ho, h1, h2, h3, hl', hi'⟩ := readRecord_spec hf hl hi
  exact ⟨_, by rw [← ho], h1, h2, h3, hl', hi', hc⟩

/-- After an instance from the current store. -/
theorem Idx.push {seen : List Nat} {s : CoreState rm.σ} {k : Nat} (hi : Idx seen s) (hr : s.rr.isSome)
    (hs : s.store = some k) (hk : k < s.iter) : Idx (seen ++ [k]) { s with instIdx := s.instIdx + 1 } := by
  refine ⟨?_, ?_⟩
  · intro k' hk'
    rcases List.mem_append.1 hk' with h | h
    · exact hi.1 k' h
    · simp at h; subst h; exact hk
  · intro _ k' hk'
    simp only at hk'
    rw [hs] at hk'
    simp only [Option.some.injEq] at hk'
    subst hk'
    simp [hi.2 hr k hs]

theorem core_yields {stores : List (Res (Option rm.σ))} {cs : List Content} (hf : FitsAll rm stores cs)
    {fuel : Nat} {stop its is e} (ha : Assembles stop its is e) (hfuel : its.length < fuel) :
    ∀ (seen : List Nat) (s : CoreState rm.σ), Left cs s its stop → Idx seen s → s.corrupt = false →
      (coreReader rm stores fuel).Yields s (number seen is) (endOutcome e) := by
  have fail : ∀ (seen : List Nat) (s : CoreState rm.σ) e, Left cs s [] (.fail e) → Idx seen s → s.corrupt = false →
      (coreReader rm stores fuel).Yields s [] (endOutcome (.fail e)) := by
    intro seen s e hl hi hc
    refine yields_stuck (fun s => Left cs s [] (.fail e) ∧ Idx seen s ∧ s.corrupt = false) ?_ s ⟨hl, hi, hc⟩
    rintro s ⟨hl, hi, hc⟩
    obtain ⟨s', h1, h2, h3, h4, h5⟩ := readRecord_fail hf hl hi
    have hrd : coreRead rm stores fuel s = coreHandle e s' := by
      simp [coreRead, readPayload, hc, h1]
    rw [hrd]
    cases hst : s'.store with
    | none => exact absurd hst h2
    | some k =>
      by_cases he : e.translated = true
      · simp [coreHandle, he, hst, endOutcome, h3, h4, h5, hc]
      · simp [coreHandle, he, endOutcome, h3, h4, h5, hc]
  induction ha with
  | eof hstop =>
    intro seen s hl hi hc
    subst hstop
    refine yields_stuck (fun s => Left cs s [] .eof ∧ Idx seen s ∧ s.corrupt = false) ?_ s ⟨hl, hi, hc⟩
    rintro s ⟨hl, hi, hc⟩
    obtain ⟨s', h1, h2, h3, h4, h5⟩ := readRecord_eof hf hl hi
    have hrd : coreRead rm stores fuel s = (.ok none, s') := by
      simp [coreRead, readPayload, hc, h1, h2]
    rw [hrd]
    exact ⟨rfl, h3, h4, by rw [h5, hc]⟩
  | fail e hstop =>
    intro seen s hl hi hc
    subst hstop
    exact fail seen s e hl hi hc
  | @whole k rest is e _ ih =>
    intro seen s hl hi hc
    obtain ⟨s', h1, h2, h3, h4, h5, h6, h7⟩ := readRecord_whole hf hl hi
    have hrd : coreRead rm stores fuel s = (.ok (some ⟨k, 0, none⟩), s') := by
      simp [coreRead, readPayload, hc, h1, h2]
    rw [number]
    refine yields_cons.2 ?_
    show (coreRead rm stores fuel s).1 = _ ∧ (coreReader rm stores fuel).Yields (coreRead rm stores fuel s).2 _ _
    rw [hrd]
    refine ⟨rfl, ih (by simp at hfuel; omega) _ s' h5 ⟨?_, by simp [h3]⟩ (by rw [h7, hc])⟩
    intro k' hk'
    rcases List.mem_append.1 hk' with h | h
    · exact h6.1 k' h
    · simp at h; subst h; exact h4
  | @complete k p rest is e _ ih =>
    intro seen s hl hi hc
    obtain ⟨s', h1, h2, h3, h4, h5, h6, h7⟩ := readRecord_part hf hl hi
    have hrd : coreRead rm stores fuel s =
        (.ok (some ⟨k, s'.instIdx, some p⟩), { s' with instIdx := s'.instIdx + 1 }) := by
      simp [coreRead, readPayload, hc, h1, h2]
    rw [number]
    refine yields_cons.2 ?_
    show (coreRead rm stores fuel s).1 = _ ∧ (coreReader rm stores fuel).Yields (coreRead rm stores fuel s).2 _ _
    rw [hrd]
    refine ⟨by rw [h6.2 h3 k h2], ih (by simp at hfuel; omega) _ _ ?_ (h6.push h3 h2 h4) (by simp [h7, hc])⟩
    exact h5
  | @split k p k' p' rest is e mids _ ih =>
    intro seen s hl hi hc
    obtain ⟨s1, h1, h2, h3, h4, h5, h6, h7⟩ := readRecord_part hf hl hi
    simp at hfuel
    obtain ⟨s2, g1, g2, g3, g4, g5⟩ := splitLoop_mids hf mids fuel [p] h5 h6 (by simp [h2]) (by omega)
    obtain ⟨s3, f1, f2, f3, f4, f5, f6, f7⟩ := readRecord_part hf g2 g3
    obtain ⟨n, hn⟩ : ∃ n, fuel - mids.length = n + 1 := ⟨fuel - mids.length - 1, by omega⟩
    have hrd : coreRead rm stores fuel s =
        (.ok (some ⟨k', s3.instIdx, some (p ++ (mids.map (·.2)).flatten ++ p')⟩),
          { s3 with instIdx := s3.instIdx + 1 }) := by
      simp [coreRead, readPayload, hc, h1, g1, hn, splitLoop, f1, f2]
    rw [number]
    refine yields_cons.2 ?_
    show (coreRead rm stores fuel s).1 = _ ∧ (coreReader rm stores fuel).Yields (coreRead rm stores fuel s).2 _ _
    rw [hrd]
    refine ⟨by rw [f6.2 f3 k' f2], ih (by omega) _ _ ?_ (f6.push f3 f2 f4) (by simp [f7, g4, h7, hc])⟩
    exact f5
  | @badStart k r rest hr0 hr1 =>
    intro seen s hl hi hc
    obtain ⟨s', h1, h2, h3, h4, h5, h6, h7⟩ := readRecord_part hf hl hi
    have hrd : coreRead rm stores fuel s = (.err .dataReader, { s' with corrupt := true }) := by
      simp [coreRead, readPayload, hc, h1, hr0, hr1, throwCorrupt, coreHandle, Err.translated, h2]
    refine yields_nil.2 ?_
    show (coreRead rm stores fuel s).1 = _ ∧ (coreReader rm stores fuel).Yields (coreRead rm stores fuel s).2 _ _
    rw [hrd]
    exact ⟨rfl, yields_corrupt _ rfl (by simp [h2])⟩
  | @badNext k p i rest mids hbad =>
    intro seen s hl hi hc
    obtain ⟨s1, h1, h2, h3, h4, h5, h6, h7⟩ := readRecord_part hf hl hi
    simp at hfuel
    obtain ⟨s2, g1, g2, g3, g4, g5⟩ := splitLoop_mids hf mids fuel [p] h5 h6 (by simp [h2]) (by omega)
    obtain ⟨n, hn⟩ : ∃ n, fuel - mids.length = n + 1 := ⟨fuel - mids.length - 1, by omega⟩
    have hrd : ∃ s3 : CoreState rm.σ, coreRead rm stores fuel s = (.err .dataReader, s3) ∧ s3.corrupt = true ∧ s3.store ≠ none := by
      obtain ⟨ki, it⟩ := i
      cases it with
      | whole =>
        obtain ⟨s3, f1, f2, f3, f4, f5, f6, f7⟩ := readRecord_whole hf g2 g3
        refine ⟨{ s3 with corrupt := true }, ?_, rfl, by simp [f2]⟩
        simp [coreRead, readPayload, hc, h1, g1, hn, splitLoop, f1, f2, throwCorrupt, coreHandle, Err.translated]
      | part r =>
        have hb := hbad r rfl
        obtain ⟨s3, f1, f2, f3, f4, f5, f6, f7⟩ := readRecord_part hf g2 g3
        refine ⟨{ s3 with corrupt := true }, ?_, rfl, by simp [f2]⟩
        simp [coreRead, readPayload, hc, h1, g1, hn, splitLoop, f1, f2, throwCorrupt, coreHandle, Err.translated,
          hb.1, hb.2]
    obtain ⟨s3, hrd, hcor, hst⟩ := hrd
    refine yields_nil.2 ?_
    show (coreRead rm stores fuel s).1 = _ ∧ (coreReader rm stores fuel).Yields (coreRead rm stores fuel s).2 _ _
    rw [hrd]
    exact ⟨rfl, yields_corrupt _ hcor hst⟩
  | @cut k p mids hstop =>
    intro seen s hl hi hc
    subst hstop
    obtain ⟨s1, h1, h2, h3, h4, h5, h6, h7⟩ := readRecord_part hf hl hi
    simp at hfuel
    obtain ⟨s2, g1, g2, g3, g4, g5⟩ := splitLoop_mids hf mids fuel [p] (rest := []) (by simpa using h5) h6 (by simp [h2]) (by omega)
    obtain ⟨s3, f1, f2, f3, f4, f5⟩ := readRecord_eof hf g2 g3
    obtain ⟨n, hn⟩ : ∃ n, fuel - mids.length = n + 1 := ⟨fuel - mids.length - 1, by omega⟩
    have hrd : coreRead rm stores fuel s = (.ub "null data store", { s3 with corrupt := true }) := by
      simp [coreRead, readPayload, hc, h1, g1, hn, splitLoop, f1, f2, throwCorrupt, coreHandle, Err.translated]
    refine yields_nil.2 ?_
    show (coreRead rm stores fuel s).1 = _ ∧ (coreReader rm stores fuel).Yields (coreRead rm stores fuel s).2 _ _
    rw [hrd]
    exact ⟨rfl, yields_cut _ rfl f2⟩
  | @cutFail k p e mids hstop =>
    intro seen s hl hi hc
    subst hstop
    obtain ⟨s1, h1, h2, h3, h4, h5, h6, h7⟩ := readRecord_part hf hl hi
    simp at hfuel
    obtain ⟨s2, g1, g2, g3, g4, g5⟩ := splitLoop_mids hf mids fuel [p] (rest := []) (by simpa using h5) h6 (by simp [h2]) (by omega)
    obtain ⟨s3, f1, f2, f3, f4, f5⟩ := readRecord_fail hf g2 g3
    obtain ⟨n, hn⟩ : ∃ n, fuel - mids.length = n + 1 := ⟨fuel - mids.length - 1, by omega⟩
    have hrd : coreRead rm stores fuel s = coreHandle e s3 := by
      simp [coreRead, readPayload, hc, h1, g1, hn, splitLoop, f1]
    have hh : coreHandle e s3 = (endOutcome (.fail e), s3) := by
      cases hst : s3.store with
      | none => exact absurd hst f2
      | some k =>
        by_cases he : e.translated = true
        · simp [coreHandle, he, hst, endOutcome]
        · simp [coreHandle, he, endOutcome]
    refine yields_nil.2 ?_
    show (coreRead rm stores fuel s).1 = _ ∧ (coreReader rm stores fuel).Yields (coreRead rm stores fuel s).2 _ _
    rw [hrd, hh]
    exact ⟨rfl, fail seen s3 e f3 f4 (by rw [f5, g4, h7, hc])⟩

/-- Every dataset has exactly one reading (existence). -/
theorem assembles_exists (stop : Stop) (n : Nat) : ∀ its : List (Nat × Item), its.length ≤ n →
    ∃ is e, Assembles stop its is e := by
  have base : ∃ is e, Assembles stop [] is e := by
    cases stop with
    | eof => exact ⟨_, _, .eof rfl⟩
    | fail e => exact ⟨_, _, .fail e rfl⟩
  have mid : ∀ its : List (Nat × Item), ∃ (mids : List (Nat × Bytes)) (rest : List (Nat × Item)),
      its = mids.map (fun q => (q.1, Item.part ⟨2, q.2⟩)) ++ rest ∧
      ∀ k r, rest.head? = some (k, Item.part r) → r.kind ≠ 2 := by
    intro its
    induction its with
    | nil => exact ⟨[], [], rfl, by simp⟩
    | cons i its ih =>
      obtain ⟨k, it⟩ := i
      cases it with
      | whole => exact ⟨[], (k, .whole) :: its, rfl, by simp⟩
      | part r =>
        by_cases hk : r.kind = 2
        · obtain ⟨mids, rest, h1, h2⟩ := ih
          refine ⟨(k, r.payload) :: mids, rest, ?_, h2⟩
          rw [h1]
          obtain ⟨kd, pl⟩ := r
          simp only at hk
          subst hk
          rfl
        · refine ⟨[], (k, .part r) :: its, rfl, ?_⟩
          intro k' r' h
          simp at h
          rw [← h.2]
          exact hk
  induction n with
  | zero =>
    intro its h
    have : its = [] := List.eq_nil_of_length_eq_zero (by omega)
    subst this
    exact base
  | succ n ih =>
    intro its h
    cases its with
    | nil => exact base
    | cons i its =>
      obtain ⟨k, it⟩ := i
      cases it with
      | whole =>
        obtain ⟨is, e, ha⟩ := ih its (by simpa using h)
        exact ⟨_, _, .whole ha⟩
      | part r =>
        obtain ⟨kd, p⟩ := r
        by_cases h0 : kd = 0
        · subst h0
          obtain ⟨is, e, ha⟩ := ih its (by simpa using h)
          exact ⟨_, _, .complete ha⟩
        · by_cases h1 : kd = 1
          · subst h1
            obtain ⟨mids, rest, rfl, h2⟩ := mid its
            cases rest with
            | nil =>
              rw [List.append_nil]
              cases stop with
              | eof => exact ⟨_, _, .cut mids rfl⟩
              | fail e => exact ⟨_, _, .cutFail e mids rfl⟩
            | cons j rest =>
              obtain ⟨kj, itj⟩ := j
              cases itj with
              | whole => exact ⟨_, _, .badNext mids (by simp)⟩
              | part r =>
                have hr2 := h2 kj r rfl
                by_cases hr3 : r.kind = 3
                · obtain ⟨kd', p'⟩ := r
                  simp only at hr3
                  subst hr3
                  obtain ⟨is, e, ha⟩ := ih rest (by simp at h; omega)
                  exact ⟨_, _, .split mids ha⟩
                · refine ⟨_, _, .badNext mids ?_⟩
                  intro r' h'
                  simp at h'
                  rw [← h']
                  exact ⟨hr2, hr3⟩
          · exact ⟨_, _, .badStart h0 h1⟩

end Mlio
