import Verif.Proofs.Retry
import Verif.Props.SchemaReader

/-! # C103: a call that failed because the data cannot be read fails again, it does not return data -/

namespace Mlio
open Spec Machine

/-! ## Record readers -/

theorem wholeN_length {ρ : Type} (dec : Bytes → Bool → Dec ρ) (n : Nat) (x : Bytes) : (wholeN dec n x).length = n := by
  induction n generalizing x with
  | zero => rfl
  | succ n ih => simp [wholeN, ih]

theorem whole_stays {t : Res (Option Record)} (ht : t = .ok none ∨ ∃ e, t = .err e) : ∀ (i j : Nat) (x : Bytes), i ≤ j →
    (wholeN recordioDecode (j + 1) x)[i]? = some t → (wholeN recordioDecode (j + 1) x)[j]? = some t
  | 0, j, x, _, h => by
    have h1 : (wholeStep recordioDecode x).1 = t := by simpa [wholeN] using h
    have h2 : ∃ y, (wholeStep recordioDecode x).2 = y ∧ (wholeStep recordioDecode y) = (t, y) := by
      unfold wholeStep at h1 ⊢
      cases hd : recordioDecode x false with
      | got r rest => rw [hd] at h1; rcases ht with rfl | ⟨e, rfl⟩ <;> simp at h1
      | ub w => rw [hd] at h1; rcases ht with rfl | ⟨e, rfl⟩ <;> simp at h1
      | fail e rest =>
        rw [hd] at h1
        have := recordio_fail_rest x false rest e hd
        subst this
        exact ⟨rest, rfl, by rw [hd]; simpa using h1⟩
      | more rest hint =>
        rw [hd] at h1
        exact ⟨[], rfl, by rw [recordioDecode_nil]; simpa using h1⟩
    obtain ⟨y, hy, hs⟩ := h2
    have key : ∀ n, wholeN recordioDecode n y = List.replicate n t := by
      intro n
      induction n with
      | zero => rfl
      | succ n ih => simp [wholeN, hs, ih, List.replicate_succ]
    cases j with
    | zero => exact h
    | succ j =>
      rw [show wholeN recordioDecode (j + 1 + 1) x = (wholeStep recordioDecode x).1 :: wholeN recordioDecode (j + 1) (wholeStep recordioDecode x).2 from rfl,
        hy, key]
      simp
  | i + 1, 0, x, h, _ => by omega
  | i + 1, j + 1, x, h, hi => by
    have e : wholeN recordioDecode (j + 1 + 1) x =
      (wholeStep recordioDecode x).1 :: wholeN recordioDecode (j + 1) (wholeStep recordioDecode x).2 := rfl
    rw [e, List.getElem?_cons_succ] at hi ⊢
    exact whole_stays ht i j _ (by omega) hi

/-- **C103** for the records of a RecordIO file, whatever its bytes: once reading a record has failed, it fails in the same way for ever; and after
the end there is nothing more. -/
theorem C103_records (data : Bytes) (size : Nat) (hsize : 0 < size) (sched : List Nat) :
    (∀ e, Sticky recordioMachine (Reader.init size data sched) e) ∧ StaysAtEnd recordioMachine (Reader.init size data sched) := by
  have hN : ∀ n, recordioMachine.outs n (Reader.init size data sched) = wholeN recordioDecode n data := by
    intro n
    rw [recordioMachine_outs, readN_eq_wholeN recordio_laws _ _ (Reader.init_inv size hsize _ _) trivial]
    simp [Reader.total, Reader.init]
  refine ⟨fun e i j hij hi => ?_, fun i j hij hi => ?_⟩
  · rw [hN] at hi ⊢
    exact whole_stays (.inr ⟨e, rfl⟩) i j data hij hi
  · rw [hN] at hi ⊢
    exact whole_stays (.inl rfl) i j data hij hi

/-! ## Instances -/

/-- **C103** for instances, partial: whatever the data stores hold – among them stores that cannot be opened – and whatever the options are,
once reading an instance has failed in an epoch, it fails in the same way in all the rest of the epoch.

Missing: sampling and `num_instances_to_read = 0`, see `C103_sampling_violated` and `C103_none_violated`; record readers that do not have the
property themselves. -/
theorem C103_instances_partial (rm : Machine Record) (stores : List (Res (Option rm.σ)))
    (hst : ∀ r, .ok (some r) ∈ stores → (∀ e, Sticky rm r e) ∧ StaysAtEnd rm r) (fuel : Nat) (R : Rng) (o : ReadOptions)
    (hs : o.sampleRatio = none) (hn : o.toRead ≠ some 0) (r : Machine Inst)
    (hm : makeInstanceReader R o (coreReader rm stores fuel) = some r) (e : Err) (he : e ≠ .diverges) :
    Sticky r r.init e ∧ ∀ u, Sticky r (r.reset u) e := by
  obtain ⟨J, h1, h2⟩ := make_lasts R o _ r (core_sticky (fun i q hq => hst q (List.mem_of_getElem? hq)) he fuel) hs hn hm
  exact ⟨fun i j => h2.outs i j _ (h1 _ (.inl rfl)), fun u i j => h2.outs i j _ (h1 _ (.inr ⟨u, rfl⟩))⟩

/-- The calls of a program that need the first instance: `read_schema`, `read_example`, `peek_example`. -/
def callsOf (as : List WAct) : Nat := as.countP fun a => match a with | .readSchema => true | .dact (.call _) => true | _ => false

/-- **C103** for the data reader, partial: if the first instance cannot be read, then all calls of `read_schema`, `read_example` and `peek_example` fail with this
error, however many there are and whatever the schedule, after `reset` too; none returns an example or says that the data are at their end.

Missing: as for `C103_instances_partial`. -/
theorem C103_calls_partial {ε S ι : Type} (rm : Machine Record) (stores : List (Res (Option rm.σ)))
    (hst : ∀ r, .ok (some r) ∈ stores → (∀ e, Sticky rm r e) ∧ StaysAtEnd rm r) (fuel : Nat) (R : Rng) (o : ReadOptions)
    (hs : o.sampleRatio = none) (hn : o.toRead ≠ some 0) (r : Machine Inst)
    (hm : makeInstanceReader R o (coreReader rm stores fuel) = some r.base) (e : Err) (he : e ≠ .diverges)
    (hf : (r.read r.init).1 = .err e) (b : Nat) (l : LastHandling) (P Q : Nat) (size : Inst → Nat) (dec : Batch Inst → Except Err (Option ε))
    (infer : Infer Inst S ι) (mem : ι) (as : List WAct) (w : WState b l r ε S ι)
    (hw : wrun P Q size dec infer as (WState.init b l r mem) = some w) :
    w.told = List.replicate (callsOf as) (.err e) ∧ w.d.hist = [] ∧ w.schema = none := by
  have hl := make_lasts R o _ r.base (core_sticky (fun i q hq => hst q (List.mem_of_getElem? hq)) he fuel) hs hn hm
  obtain ⟨J, h1, h2⟩ := lasts_of_base hl
  have h0 : r.Yields r.init [] (.err e) := h2.dead (h1 _ (.inl rfl)) hf
  have hr : ∀ u, r.Yields (r.reset u) [] (.err e) := by
    intro u
    refine h2.dead (h1 _ (.inr ⟨u, rfl⟩)) ?_
    exact make_first R o (coreReader rm stores fuel) r.base (fun _ => rfl) hs hm hf (u, none)
  obtain ⟨k1, k2⟩ := noStart_run as (fun _ => hr) (w := WState.init b l r mem) ⟨rfl, rfl, rfl, rfl, rfl, h0, rfl⟩ hw
  refine ⟨?_, k1.hist, k1.schema⟩
  rw [k2]
  show [] ++ _ = _
  rw [List.nil_append]
  congr 2

/-- A store whose first record has the magic number wrong. -/
def badStore : Res (Option Reader) := .ok (some (Reader.init 8 [1, 2, 3, 4, 5, 6, 7, 8] []))

-- The hypotheses are met: a store that is not RecordIO, behind a shuffling reader of a shard; two calls, a reset and another call fail.
example : (∀ q, .ok (some q) ∈ [badStore] → (∀ e, Sticky recordioMachine q e) ∧ StaysAtEnd recordioMachine q) ∧
    ∃ r : Machine Inst, makeInstanceReader trivialRng { numShards := 2, shardIndex := 1, shuffle := some ⟨0, 5, true⟩ }
        (coreReader recordioMachine [badStore] 9) = some r.base ∧ (r.read r.init).1 = .err .dataReader := by
  refine ⟨?_, _, rfl, by decide +kernel⟩
  intro q hq
  simp only [badStore, List.mem_singleton, Res.ok.injEq] at hq
  cases hq
  exact C103_records _ 8 (by decide) _

/-! ## Violations -/

/-- **C103** is violated by sampling: if the data fail after some instances, but fewer than a hundred, the first call fails; the calls after it return these
instances, all of them whatever the ratio is, as if nothing had happened. -/
theorem C103_sampling_violated {α : Type} (q : Ratio) (m : Machine α) (xs : List α) (e : Err) (h : m.ReadsTo m.init xs (.err e))
    (hne : xs ≠ []) (hl : xs.length < 100) :
    (sampled q m).outs (xs.length + 1) (sampled q m).init = .err e :: xs.map fun x => .ok (some x) := by
  obtain ⟨i, hi⟩ := sampleLoop_fails xs 100 m.init [] h hl
  have e1 : (sampled q m).read (sampled q m).init = (.err e, ⟨i, xs.map some, 0⟩) := by
    simp [sampled, sampledRead, sampledFill, hi]
  show _ :: (sampled q m).outs xs.length _ = _
  rw [e1]
  congr 1
  exact sampled_rest q i xs []

/-- **C103** is violated by `num_instances_to_read = 0`: if the data fail among the instances to skip, the first call fails and the one after it says that the data
are at their end. -/
theorem C103_none_violated {α : Type} (skip : Nat) (m : Machine α) (xs : List α) (e : Err) (h : m.ReadsTo m.init xs (.err e))
    (hl : xs.length < skip) :
    (ranged skip (some 0) m).outs 2 (ranged skip (some 0) m).init = [.err e, .ok none] := by
  have hs : ∀ (xs : List α) (n : Nat) (s : m.σ), m.ReadsTo s xs (.err e) → xs.length < n → ∃ i, skipLoop m n s = (.err e, i) := by
    intro xs
    induction xs with
    | nil =>
      intro n s hr hn
      cases n with
      | zero => simp at hn
      | succ n =>
        simp only [ReadsTo] at hr
        rcases hm : m.read s with ⟨o, i⟩
        rw [hm] at hr
        simp only at hr
        subst hr
        exact ⟨i, by simp [skipLoop, hm]⟩
    | cons x xs ih =>
      intro n s hr hn
      cases n with
      | zero => simp at hn
      | succ n =>
        obtain ⟨h1, h2⟩ := hr
        rcases hm : m.read s with ⟨o, i⟩
        rw [hm] at h1 h2
        simp only at h1 h2
        subst h1
        obtain ⟨i', hi⟩ := ih n i h2 (by simpa using hn)
        exact ⟨i', by simp [skipLoop, hm, hi]⟩
  obtain ⟨i, hi⟩ := hs xs skip m.init h hl
  simp [outs, ranged, rangedRead, rangedReadRest, RangedState.stop, hi]

/-- Two RecordIO records and then four bytes of another. -/
def cutFile : Bytes := recordioFile [⟨0, [65], [0, 0, 0]⟩, ⟨0, [66], [0, 0, 0]⟩] ++ [1, 2, 3, 4]

/-- The reader of `cutFile` that samples a half of its instances (before the class that keeps the peeked one). -/
def halfOfCut : Machine Inst := sampled ⟨1, 1⟩ (coreReader recordioMachine [.ok (some (Reader.init 16 cutFile []))] 9).base

/-- What this looks like to a program: the first call of `read_example` fails, the second one returns both instances although half of them were to be left
out. -/
theorem C103_sampling_calls_violated :
    makeInstanceReader trivialRng { sampleRatio := some ⟨1, 1⟩ } (coreReader recordioMachine [.ok (some (Reader.init 16 cutFile []))] 9) =
      some halfOfCut.base ∧
    (wrun (b := 2) (l := .none_) (r := halfOfCut) 2 2 (fun _ => 1) (fun b => .ok (some (b.instances.map fun i => i.bits)))
      (fun n i => (.ok (i.map fun _ => ()), n + 1))
      [.dact (.call .read), .dact (.call .read), .dact (.sys .produce), .dact (.sys .send), .dact (.sys (.decode 0)), .dact (.sys .forward),
        .dact (.sys .qStart), .dact (.sys .qStep), .dact (.sys .cStep)] (WState.init 2 .none_ halfOfCut 0)).map (fun w => (w.told, w.d.hist)) =
      some ([.err .dataReader, .ok (some ())], [(.read, .ok (some [some [65], some [66]]))]) := by
  exact ⟨rfl, rfl⟩

end Mlio
