import Verif.Model.CsvLive
import Verif.Proofs.Retry
import Verif.Proofs.CsvReader
import Verif.Proofs.CutStores

/-!
# The CSV reader that is called again after an error: proofs
-/

namespace Mlio
open Spec

section
variable {κ : Type} {rm : Machine Record}

/-- A factory whose failures do not change its state: `stores` is what it gives for the data stores in order, and `st i` is its state when the first `i` of
them have been opened. -/
structure Opens (P : Opener κ rm.σ) (stores : List (Res (Option rm.σ))) (st : Nat → κ) : Prop where
  size : P.size = stores.length
  «open» : ∀ i x, stores[i]? = some x → P.open (st i) i = (x, match x with | .ok _ => st (i + 1) | _ => st i)

variable {P : Opener κ rm.σ} {stores : List (Res (Option rm.σ))} {st : Nat → κ}

/-- The states of the two models. -/
def lift (st : Nat → κ) {β : Type} (x : Res β × CoreState rm.σ) : Res β × (CoreState rm.σ × κ) := (x.1, (x.2, st x.2.iter))

theorem initNextF_eq (h : Opens P stores st) (s : CoreState rm.σ) : initNextF P (s, st s.iter) = lift st (initNext stores s) := by
  unfold initNextF initNext lift
  rw [h.size]
  by_cases hi : s.iter < stores.length
  · rw [if_pos hi]
    have hx := List.getElem?_eq_getElem hi
    simp only [hx]
    rw [h.open s.iter _ hx]
    rcases stores[s.iter] with o | e | w <;> rfl
  · rw [if_neg hi, List.getElem?_eq_none (by omega)]

theorem recLoopF_eq (h : Opens P stores st) : ∀ (fuel : Nat) (s : CoreState rm.σ),
    recLoopF rm P fuel (s, st s.iter) = lift st (recLoop rm stores fuel s)
  | 0, s => rfl
  | fuel + 1, s => by
    unfold recLoopF recLoop
    rcases hr : s.rr with _ | r
    · simp only [hr]; rfl
    simp only [hr]
    rcases hm : rm.read r with ⟨(_ | x) | e | w, r'⟩
    · simp only
      have := initNextF_eq h { s with rr := some r' }
      simp only at this
      rw [this]
      rcases hi : initNext stores { s with rr := some r' } with ⟨(_ | _) | e | w, s'⟩
      · rfl
      · exact recLoopF_eq h fuel s'
      · rfl
      · rfl
    · rfl
    · rfl
    · rfl

theorem readRecordF_eq (h : Opens P stores st) (s : CoreState rm.σ) :
    readRecordF rm P (s, st s.iter) = lift st (readRecord rm stores s) := by
  unfold readRecordF readRecord
  rw [h.size]
  rcases hr : s.rr with _ | r
  · simp only [hr]
    rw [initNextF_eq h]
    rcases hi : initNext stores s with ⟨(_ | _) | e | w, s'⟩
    · rfl
    · exact recLoopF_eq h _ s'
    · rfl
    · rfl
  · simp only [hr]
    exact recLoopF_eq h _ s

theorem splitLoopF_eq (h : Opens P stores st) : ∀ (fuel : Nat) (s : CoreState rm.σ) (acc : List Bytes),
    splitLoopF rm P fuel (s, st s.iter) acc = lift st (splitLoop rm stores fuel s acc)
  | 0, s, acc => rfl
  | fuel + 1, s, acc => by
    unfold splitLoopF splitLoop
    rw [readRecordF_eq h]
    rcases hi : readRecord rm stores s with ⟨(_ | x) | e | w, s'⟩
    · rfl
    · simp only [lift]
      split
      · exact splitLoopF_eq h fuel s' _
      · split <;> rfl
    · rfl
    · rfl

theorem readPayloadF_eq (h : Opens P stores st) (fuel : Nat) (s : CoreState rm.σ) :
    readPayloadF rm P fuel (s, st s.iter) = lift st (readPayload rm stores fuel s) := by
  unfold readPayloadF readPayload
  simp only
  split
  · rfl
  rw [readRecordF_eq h]
  rcases hi : readRecord rm stores s with ⟨(_ | x) | e | w, s'⟩
  · rfl
  · simp only [lift]
    split
    · rfl
    · split
      · exact splitLoopF_eq h fuel s' _
      · rfl
  · rfl
  · rfl

theorem coreReadF_eq (h : Opens P stores st) (fuel : Nat) (s : CoreState rm.σ) :
    coreReadF rm P fuel (s, st s.iter) = lift st (coreRead rm stores fuel s) := by
  unfold coreReadF coreRead
  rw [readPayloadF_eq h]
  rcases hi : readPayload rm stores fuel s with ⟨(_ | x) | e | w, s'⟩
  · simp only [lift]
    rcases hs : s'.store with _ | k <;> rfl
  · simp only [lift]
    rcases hs : s'.store with _ | k <;> rfl
  · simp only [lift, coreHandle]
    split
    · rcases hs : s'.store with _ | k <;> rfl
    · rfl
  · rfl

end

/-! ## Openings that fail change nothing -/

/-- Making a record reader of any of the data stores either succeeds or leaves the members of the CSV reader as they are. -/
def FailsClean (o : CsvOpts) (rm : Machine Record) (readers : List (Res rm.σ)) : Prop :=
  ∀ r ∈ readers, ∀ s, (∃ r', (makeRecordReader o rm s r).1 = .ok r') ∨ (makeRecordReader o rm s r).2 = s

theorem openAll_get (o : CsvOpts) (rm : Machine Record) : ∀ (readers : List (Res rm.σ)) (s : CsvState) (i : Nat) (r : Res rm.σ),
    readers[i]? = some r → (openAll o rm s readers).1[i]? = some (makeRecordReader o rm (openAll o rm s (readers.take i)).2 r).1
  | [], s, i, r, h => by simp at h
  | a :: as, s, 0, r, h => by
    simp only [List.getElem?_cons_zero, Option.some.injEq] at h
    subst h
    simp [openAll]
  | a :: as, s, i + 1, r, h => by
    simp only [List.getElem?_cons_succ] at h
    have := openAll_get o rm as (makeRecordReader o rm s a).2 i r h
    simpa [openAll] using this

theorem openAll_take (o : CsvOpts) (rm : Machine Record) : ∀ (readers : List (Res rm.σ)) (s : CsvState) (i : Nat) (r : Res rm.σ),
    readers[i]? = some r →
    (openAll o rm s (readers.take (i + 1))).2 = (makeRecordReader o rm (openAll o rm s (readers.take i)).2 r).2
  | [], s, i, r, h => by simp at h
  | a :: as, s, 0, r, h => by
    simp only [List.getElem?_cons_zero, Option.some.injEq] at h
    subst h
    simp [openAll]
  | a :: as, s, i + 1, r, h => by
    simp only [List.getElem?_cons_succ] at h
    have := openAll_take o rm as (makeRecordReader o rm s a).2 i r h
    simpa [openAll] using this

theorem openAll_length (o : CsvOpts) (rm : Machine Record) : ∀ (readers : List (Res rm.σ)) (s : CsvState),
    (openAll o rm s readers).1.length = readers.length
  | [], s => rfl
  | a :: as, s => by simp [openAll, openAll_length o rm as]

/-- What the core instance reader gets for the data stores, if the members of the CSV reader are `k0` before the first of them is opened. -/
def openFrom (o : CsvOpts) (rm : Machine Record) (readers : List (Res rm.σ)) (k0 : CsvState) : List (Res (Option rm.σ)) :=
  (openAll o rm k0 readers).1.map fun r =>
    match r with
    | .ok r => .ok (some r)
    | .err e => .err e
    | .ub w => .ub w

theorem csvOpener_opens {o : CsvOpts} {rm : Machine Record} {readers : List (Res rm.σ)} (hc : FailsClean o rm readers) (k0 : CsvState) :
    Opens (csvOpener o rm readers) (openFrom o rm readers k0)
      (fun i => (openAll o rm k0 (readers.take i)).2) where
  size := by simp [csvOpener, openFrom, openAll_length]
  «open» := by
    intro i x hx
    unfold openFrom at hx
    rw [List.getElem?_map] at hx
    rcases hr : readers[i]? with _ | r
    · have : (openAll o rm k0 readers).1[i]? = none := by
        rw [List.getElem?_eq_none_iff, openAll_length]
        exact List.getElem?_eq_none_iff.1 hr
      rw [this] at hx
      cases hx
    · rw [openAll_get o rm _ _ _ _ hr] at hx
      have h2 := openAll_take o rm readers k0 i r hr
      have hcl := hc r (List.mem_of_getElem? hr) (openAll o rm k0 (readers.take i)).2
      simp only [csvOpener, hr]
      generalize (openAll o rm k0 (readers.take i)).2 = k at *
      rw [h2]
      generalize makeRecordReader o rm k r = y at *
      rcases y with ⟨r' | e | w, k'⟩
      · simp only [Option.map_some, Option.some.injEq] at hx
        subst hx
        rfl
      · simp only [Option.map_some, Option.some.injEq] at hx
        subst hx
        simp only [reduceCtorEq, exists_false, false_or] at hcl
        rw [hcl]
      · simp only [Option.map_some, Option.some.injEq] at hx
        subst hx
        simp only [reduceCtorEq, exists_false, false_or] at hcl
        rw [hcl]

theorem afterEpochs_append (o : CsvOpts) (rm : Machine Record) (readers : List (Res rm.σ)) (n : Nat) : ∀ (history : List Nat) (s : CsvState),
    afterEpochs o rm readers s (history ++ [n]) = (openAll o rm (afterEpochs o rm readers s history) (readers.take n)).2.reset
  | [], _ => rfl
  | _ :: ms, _ => afterEpochs_append o rm readers n ms _

/-- The states of the two models of the CSV reader. -/
def liveState (o : CsvOpts) (rm : Machine Record) (readers : List (Res rm.σ)) (s : CoreState rm.σ × List Nat) : CoreState rm.σ × CsvState :=
  (s.1, (openAll o rm (afterEpochs o rm readers (CsvState.fresh o) s.2) (readers.take s.1.iter)).2)

theorem live_read {codec : String → Codec} {m : SrcClass} {p : CsvParams} {o : CsvOpts} {fuel : Nat}
    {readers : List (Res (LineReader codec m fuel))} (hc : FailsClean o (lineMachine codec m (csvDecode p) fuel) readers)
    (s : (csvCoreOver codec m p o fuel readers).σ) :
    (csvLive o (lineMachine codec m (csvDecode p) fuel) fuel readers).read (liveState o (lineMachine codec m (csvDecode p) fuel) readers s) =
      (((csvCoreOver codec m p o fuel readers).read s).1,
        liveState o (lineMachine codec m (csvDecode p) fuel) readers ((csvCoreOver codec m p o fuel readers).read s).2) := by
  exact coreReadF_eq (csvOpener_opens hc (afterEpochs o (lineMachine codec m (csvDecode p) fuel) readers (CsvState.fresh o) s.2)) fuel s.1

theorem live_reset {codec : String → Codec} {m : SrcClass} {p : CsvParams} {o : CsvOpts} {fuel : Nat}
    {readers : List (Res (LineReader codec m fuel))} (s : (csvCoreOver codec m p o fuel readers).σ) :
    (csvLive o (lineMachine codec m (csvDecode p) fuel) fuel readers).reset (liveState o (lineMachine codec m (csvDecode p) fuel) readers s) =
      liveState o (lineMachine codec m (csvDecode p) fuel) readers ((csvCoreOver codec m p o fuel readers).reset s) := by
  show (_, _) = (_, _)
  congr 1
  exact (afterEpochs_append o (lineMachine codec m (csvDecode p) fuel) readers s.1.iter s.2 _).symm

/-! ## What openings leave behind -/

/-- A record reader that returns records and then always the same, and whose header row, if there is one, can be read. -/
def Tidy (o : CsvOpts) (rm : Machine Record) (r : rm.σ) : Prop :=
  ∃ xs t, rm.Yields r xs t ∧ (∀ x, t ≠ .ok (some x)) ∧ ∀ h, o.headerRow = some h → HeaderOk o h xs

theorem skipToHeader_tidy (rm : Machine Record) (t : Res (Option Record)) (htt : ∀ x, t ≠ .ok (some x)) : ∀ (h : Nat) (r : rm.σ) (xs : List Record),
    rm.Yields r xs t → ∃ ys, rm.Yields (skipToHeader rm h r).2 ys t ∧ ys[0]? = xs[h]?
  | 0, r, xs, hy => ⟨xs, hy, rfl⟩
  | h + 1, r, [], hy => by
    obtain ⟨r', e, hy'⟩ := hy.read_nil
    refine ⟨[], ?_, rfl⟩
    unfold skipToHeader
    rw [e]
    rcases t with (_ | x) | e | w
    · exact hy'
    · exact absurd rfl (htt x)
    · exact hy'
    · exact hy'
  | h + 1, r, x :: xs, hy => by
    obtain ⟨r', e, hy'⟩ := hy.read_cons
    obtain ⟨ys, h1, h2⟩ := skipToHeader_tidy rm t htt h r' xs hy'
    refine ⟨ys, ?_, by simpa using h2⟩
    unfold skipToHeader
    rw [e]
    exact h1

theorem yields_read {rm : Machine Record} {r : rm.σ} {xs : List Record} {t : Res (Option Record)} (h : rm.Yields r xs t) :
    ∃ ys, rm.Yields (rm.read r).2 ys t ∧ (rm.read r).1 = (match xs[0]? with | some x => .ok (some x) | none => t) := by
  cases xs with
  | nil => exact ⟨[], (Machine.yields_nil.1 h).2, (Machine.yields_nil.1 h).1⟩
  | cons x xs => exact ⟨xs, (Machine.yields_cons.1 h).2, (Machine.yields_cons.1 h).1⟩

/-- Making a record reader of one that is tidy. -/
theorem make_tidy {o : CsvOpts} {rm : Machine Record} {r : rm.σ} (hr : Tidy o rm r) (s : CsvState) :
    (∃ r' xs t, (makeRecordReader o rm s (.ok r)).1 = .ok r' ∧ rm.Yields r' xs t) ∨
    ((∀ r', (makeRecordReader o rm s (.ok r)).1 ≠ .ok r') ∧ (makeRecordReader o rm s (.ok r)).2 = s) := by
  obtain ⟨xs, t, hy, ht, hh⟩ := hr
  unfold makeRecordReader
  simp only
  cases ho : o.headerRow with
  | none => exact .inl ⟨r, xs, t, rfl, hy⟩
  | some h =>
    simp only
    obtain ⟨ys, k1, k2⟩ := skipToHeader_tidy rm t ht h r xs hy
    obtain ⟨zs, k3, k4⟩ := yields_read k1
    split
    · unfold readNames
      rcases hsk : skipToHeader rm h r with ⟨_ | e | w, r'⟩
      · rw [hsk] at k1 k3 k4
        simp only at k1 k3 k4 ⊢
        rcases hrd : rm.read r' with ⟨x, r''⟩
        rw [hrd] at k3 k4
        simp only at k3 k4
        rcases hx : xs[h]? with _ | hdr
        · rw [k2, hx] at k4
          simp only at k4
          subst k4
          rcases x with (_ | x) | e | w
          · exact .inl ⟨r'', zs, _, rfl, k3⟩
          · exact absurd rfl (ht x)
          · exact .inr ⟨nofun, rfl⟩
          · exact .inr ⟨nofun, rfl⟩
        · rw [k2, hx] at k4
          simp only at k4
          subst k4
          have hok := hh h ho hdr hx
          have : (namesFromRow o s hdr.payload).1 = .ok () := by
            unfold namesFromRow
            simp only [hok]
          simp only [this]
          exact .inl ⟨r'', zs, _, rfl, k3⟩
      · exact .inr ⟨nofun, rfl⟩
      · exact .inr ⟨nofun, rfl⟩
    · split
      · unfold discardHeader
        rcases hsk : skipToHeader rm h r with ⟨_ | e | w, r'⟩
        · rw [hsk] at k1 k3 k4
          simp only at k1 k3 k4 ⊢
          rcases hrd : rm.read r' with ⟨x | e | w, r''⟩
          · rw [hrd] at k3
            exact .inl ⟨r'', zs, _, rfl, k3⟩
          · exact .inr ⟨nofun, rfl⟩
          · exact .inr ⟨nofun, rfl⟩
        · exact .inr ⟨nofun, rfl⟩
        · exact .inr ⟨nofun, rfl⟩
      · exact .inl ⟨r, xs, t, rfl, hy⟩

theorem failsClean {o : CsvOpts} {rm : Machine Record} {readers : List (Res rm.σ)} (h : ∀ r, .ok r ∈ readers → Tidy o rm r) :
    FailsClean o rm readers := by
  intro r hr s
  rcases r with r | e | w
  · rcases make_tidy (h r hr) s with ⟨r', _, _, h, _⟩ | ⟨_, h⟩
    · exact .inl ⟨r', h⟩
    · exact .inr h
  · exact .inr rfl
  · exact .inr rfl

theorem openFrom_yields {o : CsvOpts} {rm : Machine Record} {readers : List (Res rm.σ)} (h : ∀ r, .ok r ∈ readers → Tidy o rm r)
    (k0 : CsvState) (i : Nat) (r : rm.σ) (hr : (openFrom o rm readers k0)[i]? = some (.ok (some r))) :
    ∃ xs t, rm.Yields r xs t := by
  unfold openFrom at hr
  rw [List.getElem?_map] at hr
  rcases hx : readers[i]? with _ | x
  · have : (openAll o rm k0 readers).1[i]? = none := by
      rw [List.getElem?_eq_none_iff, openAll_length]
      exact List.getElem?_eq_none_iff.1 hx
    rw [this] at hr
    cases hr
  · rw [openAll_get o rm _ _ _ _ hx] at hr
    have hm := List.mem_of_getElem? hx
    generalize (openAll o rm k0 (readers.take i)).2 = k at *
    rcases x with x | e | w
    · rcases make_tidy (h x hm) k with ⟨r', xs, t, h1, h2⟩ | ⟨h1, _⟩
      · rw [h1] at hr
        cases hr
        exact ⟨xs, t, h2⟩
      · generalize (makeRecordReader o rm k (.ok x)).1 = y at *
        rcases y with y | e | w
        · exact absurd rfl (h1 y)
        · cases hr
        · cases hr
    · cases hr
    · cases hr

end Mlio
