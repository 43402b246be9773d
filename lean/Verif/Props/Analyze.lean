import Verif.Proofs.Analyze
import Verif.Props.Gil

/-! # C101: `analyze_dataset` called from Python -/

namespace Mlio
open Spec

section
variable {α : Type} {m : Machine (Batch α)} {P Q : Nat} {dec : Batch α → Except Err (Option TextExample)} {L : Logs m}
  {tools : CellTools} {nulls : List Bytes} {captured : List Nat} {limit n : Nat}

/-- **C101**, what comes back: whatever the schedule, if the call returns statistics then they are the statistics of all
examples of the dataset and nothing failed; if it throws, then because there is no example, or with an error of reading or decoding. -/
theorem C101_result (hP : 0 < P) (hm : m.Resets) (bs : List (Batch α)) (t : Res (Option (Batch α))) (hsrc : Source m m.init bs t) (rel : Bool)
    (s : AState m TextExample (List ColStats)) (h : Analyzing rel L P Q dec (analyzeDataset tools nulls captured limit n) s)
    (r : Res (List ColStats)) (hr : s.result = some r) :
    (Sound dec bs t ∧ r = analyzeDataset tools nulls captured limit n (examples dec bs)) ∨ ∃ e, Fails dec bs t e ∧ r = .err e := by
  rcases analyzing_result hP hm hsrc h hr with ⟨h1, h2, _⟩ | h1
  · exact .inl ⟨h1, h2⟩
  · exact .inr h1

/-- **C101**: when the call has returned or thrown, the program has the lock of the interpreter again, whether the binding gave it away or
not. -/
theorem C101_lock (rel : Bool) (s : AState m TextExample (List ColStats))
    (h : Analyzing rel L P Q dec (analyzeDataset tools nulls captured limit n) s) (hr : s.result ≠ none) : s.g.held = true :=
  analyzing_back h hr

/-- **C101**: a call does not go on for ever. -/
theorem C101_finite (hP : 0 < P) (hm : m.Resets) (bs : List (Batch α)) (t : Res (Option (Batch α))) (hsrc : Source m m.init bs t) (rel : Bool)
    (s : Nat → AState m TextExample (List ColStats)) (as : Nat → AAct)
    (h : Analyzing rel L P Q dec (analyzeDataset tools nulls captured limit n) (s 0))
    (hs : ∀ k, astep L P Q dec (analyzeDataset tools nulls captured limit n) (as k) (s k) = some (s (k + 1))) : False :=
  analyzing_finite hP hm hsrc s as h hs

/-- **C101**, the part that holds: if the background thread does not need the lock of the interpreter for this dataset, then when nothing
more can happen the call has returned or thrown.  (Missing: datasets for which it does, for which it is false.) -/
theorem C101_returns_partial (hP : 0 < P) (hQ : 0 < Q) (hm : m.Resets) (bs : List (Batch α)) (t : Res (Option (Batch α)))
    (hsrc : Source m m.init bs t) (hn : ¬ NeedsLock L bs) (s : AState m TextExample (List ColStats))
    (h : Analyzing analyzeReleases L P Q dec (analyzeDataset tools nulls captured limit n) s)
    (hend : AEnd L P Q dec (analyzeDataset tools nulls captured limit n) s) : ∃ r, s.result = some r := by
  cases hr : s.result with
  | some r => exact ⟨r, rfl⟩
  | none =>
    obtain ⟨a, s', h1⟩ := analyzing_progress hP hQ hm hsrc h hr (.inr (not_willLog hP hm hsrc h hn))
    rw [hend a] at h1
    simp at h1

/-- **C101** is false of the code: if the dataset has no errors and the background thread needs the lock anywhere in it, the
call never returns, whatever the schedule. -/
theorem C101_hangs_violated (hP : 0 < P) (hm : m.Resets) (bs : List (Batch α)) (t : Res (Option (Batch α))) (hsrc : Source m m.init bs t)
    (hsound : Sound dec bs t) (hneed : NeedsLock L bs) (s : AState m TextExample (List ColStats))
    (h : Analyzing analyzeReleases L P Q dec (analyzeDataset tools nulls captured limit n) s) : s.result = none := by
  cases hr : s.result with
  | none => rfl
  | some r =>
    exfalso
    rcases analyzing_result hP hm hsrc h hr with ⟨_, _, hmem⟩ | ⟨e, h1 | ⟨b, hb, h1⟩, _⟩
    · obtain ⟨⟨pos, hi⟩, _⟩ := analyzing_inv hP hm hsrc h
      obtain ⟨k, ho⟩ := hi.out
      have hns := analyzing_not_stopped hP hm hsrc hsound hneed h
      rcases ho with ho | ⟨_, ⟨h1, _⟩ | ⟨_, e, _, ho⟩⟩
      · rw [ho] at hmem; simp at hmem
      · exact hns h1
      · rw [ho] at hmem; simp [List.mem_replicate] at hmem
    · rw [hsound.1] at h1; simp at h1
    · obtain ⟨r, h2⟩ := hsound.2 b hb
      rw [h1] at h2; simp at h2

/-- **C101** with the binding that gives the lock away: the call returns or throws for every dataset. -/
theorem C101_releasing (hP : 0 < P) (hQ : 0 < Q) (hm : m.Resets) (bs : List (Batch α)) (t : Res (Option (Batch α))) (hsrc : Source m m.init bs t)
    (s : AState m TextExample (List ColStats)) (h : Analyzing true L P Q dec (analyzeDataset tools nulls captured limit n) s)
    (hend : AEnd L P Q dec (analyzeDataset tools nulls captured limit n) s) : ∃ r, s.result = some r := by
  cases hr : s.result with
  | some r => exact ⟨r, rfl⟩
  | none =>
    obtain ⟨a, s', h1⟩ := analyzing_progress hP hQ hm hsrc h hr (.inl (analyzing_held h hr))
    rw [hend a] at h1
    simp at h1

end

/-! ## Datasets -/

/-- Each instance is a number; a batch is decoded to one column with the numbers as digits. -/
def digitsDec (b : Batch Nat) : Except Err (Option TextExample) :=
  .ok (some ⟨[b.instances.map fun x => [UInt8.ofNat (48 + x)]], 0⟩)

/-- No cell is a number. -/
def plainTools : CellTools := { parse := fun _ => .bad, isInt := fun _ => true, hash := fun _ => 0 }

def digitsFin : List TextExample → Res (List ColStats) := analyzeDataset plainTools [] [] 10 1

theorem warnReader_source : Source warnReader warnReader.init (batches 2 .dropWarn [1, 2, 3]) (.ok none) :=
  ⟨(C24_batches_partial _ _ (listMachine_yields _ _) 2 (by decide) .dropWarn (by decide)).readsTo,
    fun i q hq => ((C24_batches_meaning 2 (by decide) .dropWarn [1, 2, 3]).2 i q hq).1, Or.inl rfl⟩

theorem warnReader_resets : warnReader.Resets := batched_resets (fun _ => rfl) 2 .dropWarn

/-- **C101** is false of the code for three instances read in examples of two, the last one dropped with a warning, with what `import mlio`
sets: the call never returns. -/
theorem C101_warning_hangs_violated (s : AState warnReader TextExample (List ColStats))
    (h : Analyzing analyzeReleases warnLogs 1 1 digitsDec digitsFin s) : s.result = none :=
  C101_hangs_violated (by decide) warnReader_resets _ _ warnReader_source ⟨rfl, fun b _ => ⟨_, rfl⟩⟩
    (.inl ⟨1, by decide, by decide⟩) s h

/-- A data store written in Python: its `open_read` needs the lock when the first instance is read. -/
def pyStoreLogs : Logs warnReader := ⟨fun s => if s.2 = 0 then 1 else 0, fun _ => 0⟩

/-- So is it for every reader over such a data store. -/
theorem C101_python_store_hangs_violated (s : AState warnReader TextExample (List ColStats))
    (h : Analyzing analyzeReleases pyStoreLogs 1 1 digitsDec digitsFin s) : s.result = none :=
  C101_hangs_violated (by decide) warnReader_resets _ _ warnReader_source ⟨rfl, fun b _ => ⟨_, rfl⟩⟩
    (.inl ⟨0, by decide, by decide⟩) s h

/-- One example and then the end. -/
def analyzeRun : List AAct :=
  [.bg .srcBegin, .bg (.sys .produce), .bg (.sys .send), .bg (.decBegin 0), .bg (.sys (.decode 0)), .bg (.sys .forward), .bg (.sys .qStart), .bg (.sys .qStep),
    .wait, .next, .bg .srcBegin, .bg (.sys .produce), .bg (.sys .finish), .wait, .next]

/-- Nothing is logged. -/
def quietLogs : Logs warnReader := ⟨fun _ => 0, fun _ => 0⟩

-- Without the need for the lock the call returns the statistics of the two rows.
example : ∃ s0 s ss, analyzeCall analyzeReleases (GState.init warnReader TextExample) = some s0 ∧
    arun quietLogs 1 1 digitsDec digitsFin analyzeRun s0 = some s ∧ s.result = some (.ok ss) ∧ ss.map (·.core.rows) = [2] :=
  ⟨_, _, _, rfl, rfl, rfl, rfl⟩

example : ¬ NeedsLock quietLogs (batches 2 .dropWarn [1, 2, 3]) := by
  rintro (⟨k, _, h⟩ | ⟨b, _, h⟩) <;> simp [quietLogs] at h

-- With the warning the same schedule is stuck at the second read of the batch reader, after one example.
example : ∃ s0 s, analyzeCall analyzeReleases (GState.init warnReader TextExample) = some s0 ∧
    arun warnLogs 1 1 digitsDec digitsFin (analyzeRun.take 11) s0 = some s ∧ s.seen.length = 1 ∧ s.g.held = true ∧ s.g.srcBody = some 1 :=
  ⟨_, _, rfl, rfl, rfl, rfl, rfl⟩

-- If the binding gave the lock away it would go on.
example : ∃ s0 s ss, analyzeCall true (GState.init warnReader TextExample) = some s0 ∧
    arun warnLogs 1 1 digitsDec digitsFin (analyzeRun.take 11 ++ [.bg .srcLog] ++ analyzeRun.drop 11) s0 = some s ∧
    s.result = some (.ok ss) ∧ ss.map (·.core.rows) = [2] :=
  ⟨_, _, _, rfl, rfl, rfl, rfl⟩

end Mlio
