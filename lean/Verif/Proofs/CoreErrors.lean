import Verif.Proofs.CoreReader
import Verif.Spec.CoreErrors

namespace Mlio
open Spec Machine

variable {rm : Machine Record}

/-- How the records of a store end. -/
def endOf : Option Err → Res (Option Record)
  | none => .ok none
  | some e => .err e

/-- Where the reader is: how many records of the current store it has read. -/
inductive At (cs : List Content) (s : CoreState rm.σ) : Prop where
  | between (h : s.rr = none) (hp : Past cs s.iter) : At cs s
  | inside (r : rm.σ) (k : Nat) (done rs : List Record) (b : Option Err) (h : s.rr = some r) (hk : s.store = some k) (hi : s.iter = k + 1)
      (hp : Past cs k) (hc : cs[k]? = some (.records (done ++ rs) b)) (hn : s.recIdx = done.length) (hy : rm.Yields r rs (endOf b)) : At cs s
  | stuck (r : rm.σ) (h : s.rr = some r) (hp : Past cs s.iter) (hy : rm.Yields r [] (.ok none)) : At cs s

/-- What `read_record` leaves behind. -/
def Left1 (cs : List Content) (o : Res (Option Record)) (s' : CoreState rm.σ) : Prop :=
  At cs s' ∧
  match o with
  | .ok (some r) => ∃ k rs b n, s'.store = some k ∧ cs[k]? = some (.records rs b) ∧ s'.recIdx = n + 1 ∧ rs[n]? = some r
  | .ok none => s'.recIdx = 0 ∧ ∀ k, s'.store = some k → cs[k]? = some .whole
  | .err e => ∃ k, s'.store = some k ∧ FailsAt cs k s'.recIdx e
  | .ub _ => True

theorem initNext_at {stores : List (Res (Option rm.σ))} {cs : List Content} (hf : FitsAll rm stores cs) {s : CoreState rm.σ}
    (hp : Past cs s.iter) (hrr : ∀ r, s.rr = some r → rm.Yields r [] (.ok none)) :
    (∃ s', initNext stores s = (.ok true, s') ∧ At cs s' ∧ s'.rr.isSome ∧ s'.corrupt = s.corrupt) ∨
    (∃ s', initNext stores s = (.ok false, s') ∧ Left1 cs (.ok none) s' ∧ s'.corrupt = s.corrupt) ∨
    (∃ e s', initNext stores s = (.err e, s') ∧ Left1 cs (.err e) s' ∧ s'.corrupt = s.corrupt) := by
  unfold initNext
  cases hs : stores[s.iter]? with
  | none =>
    refine Or.inr (Or.inl ⟨_, rfl, ⟨.between rfl hp, rfl, ?_⟩, rfl⟩)
    intro k hk
    cases hk
  | some o =>
    have hlt : s.iter < stores.length := (List.getElem?_eq_some_iff.1 hs).1
    have hltc := hf.lt hp hlt
    have hc : cs[s.iter]? = some (cs[s.iter]'hltc) := List.getElem?_eq_getElem _
    have hfit := hf.2 _ _ _ hs hc
    revert hfit hc
    generalize (cs[s.iter]'hltc) = c
    intro hc hfit
    match o, c, hfit, hc with
    | .ok none, .whole, _, hc =>
      refine Or.inr (Or.inl ⟨_, rfl, ⟨.between rfl (hp.next hc rfl), rfl, ?_⟩, rfl⟩)
      intro k hk
      cases hk
      exact hc
    | .ok (some r), .records rs none, hy, hc => exact Or.inl ⟨_, rfl, .inside r s.iter [] rs none rfl rfl rfl hp hc rfl hy, rfl, rfl⟩
    | .ok (some r), .records rs (some e), hy, hc => exact Or.inl ⟨_, rfl, .inside r s.iter [] rs (some e) rfl rfl rfl hp hc rfl hy, rfl, rfl⟩
    | .err e, .unreadable e', he, hc =>
      simp only [Fits] at he
      subst he
      refine Or.inr (Or.inr ⟨_, _, rfl, ⟨?_, s.iter, rfl, fun j c hj hjc => hp j c hjc hj, Or.inl ⟨hc, rfl⟩⟩, rfl⟩)
      cases hr : s.rr with
      | none => exact .between rfl hp
      | some r => exact .stuck r rfl hp (hrr r hr)

theorem recLoop_at {stores : List (Res (Option rm.σ))} {cs : List Content} (hf : FitsAll rm stores cs) (fuel : Nat) {s : CoreState rm.σ}
    (ha : At cs s) (hrr : s.rr.isSome) :
    ((recLoop rm stores fuel s).1 = .err .diverges ∨ Left1 cs (recLoop rm stores fuel s).1 (recLoop rm stores fuel s).2) ∧
    At cs (recLoop rm stores fuel s).2 ∧ (recLoop rm stores fuel s).2.corrupt = s.corrupt := by
  induction fuel generalizing s with
  | zero => exact ⟨Or.inl rfl, ha, rfl⟩
  | succ n ih =>
    have next : ∀ r', rm.Yields r' [] (.ok none) → Past cs s.iter → ∀ s0 : CoreState rm.σ, s0 = { s with rr := some r' } →
        ((match initNext stores s0 with
          | (.ok true, s') => recLoop rm stores n s'
          | (.ok false, s') => (.ok none, s')
          | (.err e, s') => (.err e, s')
          | (.ub w, s') => (.ub w, s') : Res (Option Record) × CoreState rm.σ).1 = .err .diverges ∨
        Left1 cs (match initNext stores s0 with
          | (.ok true, s') => recLoop rm stores n s'
          | (.ok false, s') => (.ok none, s')
          | (.err e, s') => (.err e, s')
          | (.ub w, s') => (.ub w, s') : Res (Option Record) × CoreState rm.σ).1 (match initNext stores s0 with
          | (.ok true, s') => recLoop rm stores n s'
          | (.ok false, s') => (.ok none, s')
          | (.err e, s') => (.err e, s')
          | (.ub w, s') => (.ub w, s') : Res (Option Record) × CoreState rm.σ).2) ∧
        At cs (match initNext stores s0 with
          | (.ok true, s') => recLoop rm stores n s'
          | (.ok false, s') => (.ok none, s')
          | (.err e, s') => (.err e, s')
          | (.ub w, s') => (.ub w, s') : Res (Option Record) × CoreState rm.σ).2 ∧
        (match initNext stores s0 with
          | (.ok true, s') => recLoop rm stores n s'
          | (.ok false, s') => (.ok none, s')
          | (.err e, s') => (.err e, s')
          | (.ub w, s') => (.ub w, s') : Res (Option Record) × CoreState rm.σ).2.corrupt = s.corrupt := by
      intro r' hy hp s0 hs0
      subst hs0
      rcases initNext_at hf (s := { s with rr := some r' }) hp (by intro r h; cases h; exact hy) with
        ⟨s', e, h1, h2, h3⟩ | ⟨s', e, h1, h3⟩ | ⟨x, s', e, h1, h3⟩
      · rw [e]
        obtain ⟨i1, i2, i3⟩ := ih h1 h2
        exact ⟨i1, i2, i3.trans h3⟩
      · rw [e]; exact ⟨Or.inr h1, h1.1, h3⟩
      · rw [e]; exact ⟨Or.inr h1, h1.1, h3⟩
    cases ha with
    | between h _ => rw [h] at hrr; cases hrr
    | inside r k done rs b h hk hi hp hc hn hy =>
      simp only [recLoop, h]
      cases rs with
      | cons x rs =>
        obtain ⟨r', er, hy'⟩ := hy.read_cons
        simp only [er]
        have hat : At cs ({ s with rr := some r', recIdx := s.recIdx + 1 } : CoreState rm.σ) :=
          .inside r' k (done ++ [x]) rs b rfl hk hi hp (by simpa using hc) (by simp [hn]) hy'
        refine ⟨Or.inr ⟨hat, k, _, b, done.length, hk, hc, by simp [hn], by simp⟩, hat, by first | rfl | trivial⟩
      | nil =>
        obtain ⟨r', er, hy'⟩ := hy.read_nil
        cases b with
        | none =>
          simp only [endOf] at er hy'
          simp only [er]
          exact next r' hy' (by rw [hi]; exact hp.next hc rfl) _ rfl
        | some e =>
          simp only [endOf] at er hy'
          simp only [er]
          have hat : At cs ({ s with rr := some r' } : CoreState rm.σ) := .inside r' k done [] (some e) rfl hk hi hp hc hn hy'
          refine ⟨Or.inr ⟨hat, k, hk, fun j c hj hjc => hp j c hjc hj, Or.inr ⟨_, hc, ?_⟩⟩, hat, by first | rfl | trivial⟩
          simp [hn]
    | stuck r h hp hy =>
      simp only [recLoop, h]
      obtain ⟨r', er, hy'⟩ := hy.read_nil
      simp only [er]
      exact next r' hy' hp _ rfl

theorem readRecord_at {stores : List (Res (Option rm.σ))} {cs : List Content} (hf : FitsAll rm stores cs) {s : CoreState rm.σ}
    (ha : At cs s) :
    ((readRecord rm stores s).1 = .err .diverges ∨ Left1 cs (readRecord rm stores s).1 (readRecord rm stores s).2) ∧
    At cs (readRecord rm stores s).2 ∧ (readRecord rm stores s).2.corrupt = s.corrupt := by
  unfold readRecord
  cases hr : s.rr with
  | some r => exact recLoop_at hf _ ha (by rw [hr]; rfl)
  | none =>
    have hp : Past cs s.iter := by
      cases ha with
      | between _ hp => exact hp
      | inside r k done rs b h => rw [hr] at h; cases h
      | stuck r h => rw [hr] at h; cases h
    rcases initNext_at hf hp (by intro r h; rw [hr] at h; cases h) with ⟨s', e, h1, h2, h3⟩ | ⟨s', e, h1, h3⟩ | ⟨x, s', e, h1, h3⟩
    · rw [e]
      obtain ⟨i1, i2, i3⟩ := recLoop_at hf (stores.length + 1) h1 h2
      exact ⟨i1, i2, i3.trans h3⟩
    · rw [e]; exact ⟨Or.inr h1, h1.1, h3⟩
    · rw [e]; exact ⟨Or.inr h1, h1.1, h3⟩

/-- The last thing that was read when a split record turns out to be corrupt. -/
def LastRead (cs : List Content) (s : CoreState rm.σ) : Prop :=
  (∃ k rs b n r, s.store = some k ∧ cs[k]? = some (.records rs b) ∧ s.recIdx = n + 1 ∧ rs[n]? = some r ∧ r.kind ≠ 0 ∧ r.kind ≠ 1) ∨
  (∃ k rs b n r, s.store = some k ∧ cs[k]? = some (.records rs b) ∧ s.recIdx = n + 1 ∧ rs[n]? = some r ∧ r.kind ≠ 2 ∧ r.kind ≠ 3) ∨
  (s.recIdx = 0 ∧ ∀ k, s.store = some k → cs[k]? = some .whole)

/-- What `read_record_payload` leaves behind. -/
def PayloadOk (cs : List Content) (o : Res (Option Bytes)) (s' : CoreState rm.σ) : Prop :=
  At cs s' ∧ ∀ e, o = .err e → (s'.corrupt = false → e = .diverges ∨ ∃ k, s'.store = some k ∧ FailsAt cs k s'.recIdx e) ∧
    (s'.corrupt = true → e = .corruptRecord ∧ LastRead cs s')

theorem At.corrupt {cs : List Content} {s : CoreState rm.σ} (h : At cs s) : At cs ({ s with corrupt := true } : CoreState rm.σ) := by
  cases h with
  | between h hp => exact .between h hp
  | inside r k done rs b h hk hi hp hc hn hy => exact .inside r k done rs b h hk hi hp hc hn hy
  | stuck r h hp hy => exact .stuck r h hp hy

theorem readRecord_payload {stores : List (Res (Option rm.σ))} {cs : List Content} (hf : FitsAll rm stores cs) {s : CoreState rm.σ}
    (ha : At cs s) (hc : s.corrupt = false) :
    (∃ r s', readRecord rm stores s = (.ok (some r), s') ∧ At cs s' ∧ s'.corrupt = false ∧
      ∃ k rs b n, s'.store = some k ∧ cs[k]? = some (.records rs b) ∧ s'.recIdx = n + 1 ∧ rs[n]? = some r) ∨
    (∃ s', readRecord rm stores s = (.ok none, s') ∧ At cs s' ∧ s'.corrupt = false ∧ LastRead cs s') ∨
    (∃ e s', readRecord rm stores s = (.err e, s') ∧ PayloadOk cs (.err e) s' ∧ s'.corrupt = false) ∨
    (∃ w s', readRecord rm stores s = (.ub w, s') ∧ At cs s' ∧ s'.corrupt = false) := by
  obtain ⟨h1, h2, h3⟩ := readRecord_at hf ha
  rcases ho : readRecord rm stores s with ⟨o, s'⟩
  rw [ho] at h1 h2 h3
  simp only at h1 h2 h3
  rw [hc] at h3
  have err : ∀ e, o = .err e → PayloadOk cs (.err e : Res (Option Bytes)) s' := by
    rintro e rfl
    refine ⟨h2, fun e' he => ⟨fun _ => ?_, fun hx => by rw [h3] at hx; cases hx⟩⟩
    cases he
    rcases h1 with h1 | ⟨_, h1⟩
    · cases h1; exact Or.inl rfl
    · exact Or.inr h1
  cases o with
  | ok o =>
    rcases h1 with h1 | ⟨_, h1⟩
    · cases h1
    · cases o with
      | none => exact Or.inr (Or.inl ⟨s', rfl, h2, h3, Or.inr (Or.inr h1)⟩)
      | some r => exact Or.inl ⟨r, s', rfl, h2, h3, h1⟩
  | err e => exact Or.inr (Or.inr (Or.inl ⟨e, s', rfl, err e rfl, h3⟩))
  | ub w => exact Or.inr (Or.inr (Or.inr ⟨w, s', rfl, h2, h3⟩))

theorem throwCorrupt_ok {α : Type} {cs : List Content} {s : CoreState rm.σ} (ha : At cs s) (hl : LastRead cs s) :
    (throwCorrupt s : Res α × CoreState rm.σ).1 = .err .corruptRecord ∧ At cs (throwCorrupt s : Res α × CoreState rm.σ).2 ∧
    LastRead cs (throwCorrupt s : Res α × CoreState rm.σ).2 ∧ (throwCorrupt s : Res α × CoreState rm.σ).2.corrupt = true :=
  ⟨rfl, ha.corrupt, hl, rfl⟩

theorem throwCorrupt_payload {cs : List Content} {s : CoreState rm.σ} (ha : At cs s) (hl : LastRead cs s) :
    PayloadOk cs (throwCorrupt s : Res (Option Bytes) × CoreState rm.σ).1 (throwCorrupt s : Res (Option Bytes) × CoreState rm.σ).2 := by
  refine ⟨ha.corrupt, fun e he => ⟨fun hx => (by cases hx), fun _ => ⟨?_, hl⟩⟩⟩
  cases he
  rfl

theorem splitLoop_at {stores : List (Res (Option rm.σ))} {cs : List Content} (hf : FitsAll rm stores cs) (fuel : Nat) {s : CoreState rm.σ}
    (acc : List Bytes) (ha : At cs s) (hc : s.corrupt = false) :
    PayloadOk cs (splitLoop rm stores fuel s acc).1 (splitLoop rm stores fuel s acc).2 ∧
    ((splitLoop rm stores fuel s acc).2.corrupt = true → (splitLoop rm stores fuel s acc).1 = .err .corruptRecord ∧
      LastRead cs (splitLoop rm stores fuel s acc).2) := by
  induction fuel generalizing s acc with
  | zero =>
    refine ⟨⟨ha, fun e he => ⟨fun _ => ?_, fun hx => ?_⟩⟩, fun hx => ?_⟩
    · cases he; exact Or.inl rfl
    · simp only [splitLoop, hc] at hx; cases hx
    · simp only [splitLoop, hc] at hx; cases hx
  | succ n ih =>
    rcases readRecord_payload hf ha hc with ⟨r, s', e, h1, h2, k, rs, b, m, h4⟩ | ⟨s', e, h1, h2, h3⟩ | ⟨x, s', e, h1, h2⟩ | ⟨w, s', e, h1, h2⟩
    · simp only [splitLoop, e]
      split
      · exact ih (acc ++ [r.payload]) h1 h2
      · split
        · refine ⟨⟨h1, fun e he => by cases he⟩, fun hx => ?_⟩
          rw [h2] at hx
          cases hx
        · rename_i n2 n3
          have hl : LastRead cs s' := Or.inr (Or.inl ⟨k, rs, b, m, r, h4.1, h4.2.1, h4.2.2.1, h4.2.2.2, n2, n3⟩)
          exact ⟨throwCorrupt_payload h1 hl, fun _ => ⟨rfl, (throwCorrupt_ok (α := Option Bytes) h1 hl).2.2.1⟩⟩
    · simp only [splitLoop, e]
      exact ⟨throwCorrupt_payload h1 h3, fun _ => ⟨rfl, (throwCorrupt_ok (α := Option Bytes) h1 h3).2.2.1⟩⟩
    · simp only [splitLoop, e]
      exact ⟨h1, fun hx => by rw [h2] at hx; cases hx⟩
    · simp only [splitLoop, e]
      refine ⟨⟨h1, fun e he => by cases he⟩, fun hx => by rw [h2] at hx; cases hx⟩

/-- The states that are reached. -/
def Sane (cs : List Content) (s : CoreState rm.σ) : Prop := At cs s ∧ (s.corrupt = true → LastRead cs s)

theorem readPayload_at {stores : List (Res (Option rm.σ))} {cs : List Content} (hf : FitsAll rm stores cs) (fuel : Nat) {s : CoreState rm.σ}
    (hs : Sane cs s) :
    PayloadOk cs (readPayload rm stores fuel s).1 (readPayload rm stores fuel s).2 ∧
    ((readPayload rm stores fuel s).2.corrupt = true → (readPayload rm stores fuel s).1 = .err .corruptRecord ∧
      LastRead cs (readPayload rm stores fuel s).2) := by
  unfold readPayload
  cases hc : s.corrupt with
  | true =>
    simp only [if_true]
    exact ⟨throwCorrupt_payload hs.1 (hs.2 hc), fun _ => ⟨rfl, (throwCorrupt_ok (α := Option Bytes) hs.1 (hs.2 hc)).2.2.1⟩⟩
  | false =>
    simp only [Bool.false_eq_true, if_false]
    rcases readRecord_payload hf hs.1 hc with ⟨r, s', e, h1, h2, k, rs, b, m, h4⟩ | ⟨s', e, h1, h2, h3⟩ | ⟨x, s', e, h1, h2⟩ | ⟨w, s', e, h1, h2⟩
    · simp only [e]
      split
      · refine ⟨⟨h1, fun e he => by cases he⟩, fun hx => ?_⟩
        rw [h2] at hx
        cases hx
      · split
        · exact splitLoop_at hf fuel [r.payload] h1 h2
        · rename_i n0 n1
          have hl : LastRead cs s' := Or.inl ⟨k, rs, b, m, r, h4.1, h4.2.1, h4.2.2.1, h4.2.2.2, n0, n1⟩
          exact ⟨throwCorrupt_payload h1 hl, fun _ => ⟨rfl, (throwCorrupt_ok (α := Option Bytes) h1 hl).2.2.1⟩⟩
    · simp only [e]
      refine ⟨⟨h1, fun e he => by cases he⟩, fun hx => ?_⟩
      rw [h2] at hx
      cases hx
    · simp only [e]
      exact ⟨h1, fun hx => by rw [h2] at hx; cases hx⟩
    · simp only [e]
      refine ⟨⟨h1, fun e he => by cases he⟩, fun hx => by rw [h2] at hx; cases hx⟩

theorem coreRead_state (stores : List (Res (Option rm.σ))) (fuel : Nat) (s : CoreState rm.σ) :
    ∃ i, (coreRead rm stores fuel s).2 = { (readPayload rm stores fuel s).2 with instIdx := i } := by
  unfold coreRead
  rcases readPayload rm stores fuel s with ⟨o, ⟨it, st, rr, ii, ri, c⟩⟩
  cases o with
  | ok o =>
    cases o with
    | none => cases st <;> exact ⟨ii, rfl⟩
    | some p =>
      cases st with
      | none => exact ⟨ii, rfl⟩
      | some k => exact ⟨ii + 1, rfl⟩
  | err e =>
    refine ⟨ii, ?_⟩
    simp only [coreHandle]
    split
    · split <;> rfl
    · rfl
  | ub w => exact ⟨ii, rfl⟩

theorem sane_reached {stores : List (Res (Option rm.σ))} {cs : List Content} (hf : FitsAll rm stores cs) (fuel : Nat) {s : (coreReader rm stores fuel).σ}
    (h : Occurs (coreReader rm stores fuel) s) : Sane (rm := rm) cs s := by
  have fresh : Sane cs (CoreState.fresh : CoreState rm.σ) :=
    ⟨.between rfl (fun j _ _ hj => by simp [CoreState.fresh] at hj), fun hx => by cases hx⟩
  induction h with
  | init => exact fresh
  | reset _ _ => exact fresh
  | @read s _ ih =>
    obtain ⟨h1, h2⟩ := readPayload_at hf fuel ih
    obtain ⟨i, e⟩ := coreRead_state stores fuel s
    show Sane cs (coreRead rm stores fuel s).2
    rw [e]
    refine ⟨?_, fun hx => (h2 hx).2⟩
    cases h1.1 with
    | between h hp => exact .between h hp
    | inside r k done rs b h hk hi hp hc hn hy => exact .inside r k done rs b h hk hi hp hc hn hy
    | stuck r h hp hy => exact .stuck r h hp hy

end Mlio
