import Verif.Proofs.PyShare

/-!
# C111: tensors shared with other libraries

The specification (`Spec/PyShare.lean`) has no counts, contexts or deleters: objects refer to tensors.  A program is a list of steps `ShOp`.
-/

namespace Mlio
open Spec

/-- C111 (part): in any program of any length that drops arrays of other libraries with the lock (or whose tensor is not over a Python buffer or has another reference) and no empty
capsule while an exception is on its way, each step ends as specified (in particular no step uses freed memory or frees twice, and each read gives the elements of the tensor that was exported), and
at the end the memory of a tensor was freed if and only if nothing refers to it. -/
theorem C111_partial (prog : List ShOp) (h : CarefulShares prog) :
    ∃ s, ShState.start.run prog = .ok ((ShareEnv.start.run prog).1, s) ∧
      ∀ t y, s.tensors[t]? = some y → (y.freed = true ↔ ¬ (ShareEnv.start.run prog).2.InUse t) := by
  obtain ⟨os, s', h1, h2, h3⟩ := share_run prog prog [] ShState.start rfl (ShareInv.start _) rfl (fun q a hq _ => (h q a hq).1)
  have h4 := h3 (fun q a hq _ => (h q a hq).2)
  exact ⟨s', by rw [h1, h4]; rfl, fun t y hy => shareInv_freed h2 hy⟩

/-- C111: in particular programs that hold the lock whenever they drop something, and drop nothing while an exception is on its way. -/
theorem C111_locked (prog : List ShOp) (h : ∀ x lock pending, ShOp.drop x lock pending ∈ prog → lock = true ∧ pending = false) :
    ∃ s, ShState.start.run prog = .ok ((ShareEnv.start.run prog).1, s) ∧
      ∀ t y, s.tensors[t]? = some y → (y.freed = true ↔ ¬ (ShareEnv.start.run prog).2.InUse t) := by
  apply C111_partial
  intro q a hq
  have ha : a ∈ prog := hq.subset (by simp)
  cases a with
  | drop x lock pending =>
    obtain ⟨rfl, rfl⟩ := h x lock pending ha
    exact ⟨fun _ _ => .inl rfl, fun _ _ => rfl⟩
  | make => exact ⟨trivial, trivial⟩
  | alias => exact ⟨trivial, trivial⟩
  | view => exact ⟨trivial, trivial⟩
  | «export» => exact ⟨trivial, trivial⟩
  | take => exact ⟨trivial, trivial⟩
  | read => exact ⟨trivial, trivial⟩

/-- C111: the behaviour of a program is defined if and only if it drops arrays over Python buffers with the lock: there is no other way to use freed memory or to free twice. -/
theorem C111_lock (prog : List ShOp) :
    (∃ r, ShState.start.run prog = .ok r) ↔ ∀ q a, q ++ [a] <+: prog → DropsWithLock (ShareEnv.start.run q).2 (buffersOf prog) a := by
  constructor
  · rintro ⟨r, hr⟩ q a hq
    apply Classical.byContradiction
    intro hn
    obtain ⟨m, hm⟩ := share_run_ub prog q a hq hn prog [] ShState.start rfl (ShareInv.start _) rfl (by simp)
    rw [hm] at hr
    cases hr
  · intro h
    obtain ⟨os, s', h1, -⟩ := share_run prog prog [] ShState.start rfl (ShareInv.start _) rfl (fun q a hq _ => h q a hq)
    exact ⟨_, h1⟩

/-- C111 (code): a tensor over a Python buffer, exported and taken by another library; the last array of it goes in a thread without the interpreter lock. -/
theorem C111_lock_violated :
    ∃ prog, (∀ x lock, ShOp.drop x lock true ∉ prog) ∧ ∃ m, ShState.start.run prog = .ub m :=
  ⟨[.make true true, .export 0 16, .take 1, .drop 0 true false, .drop 1 true false, .drop 2 false false], by simp, _, rfl⟩

/-- C111 (code): an exception is on its way while a taken capsule goes: the exception is forgotten. -/
theorem C111_exception_violated :
    ∃ prog, (∀ x pending, ShOp.drop x false pending ∉ prog) ∧ ∃ os s, ShState.start.run prog = .ok (os, s) ∧ os ≠ (ShareEnv.start.run prog).1 ∧ ShOut.forgotten ∈ os :=
  ⟨[.make false true, .export 0 16, .take 1, .drop 1 true true], by simp, _, _, rfl, by decide, by decide⟩

/-- Two arrays, a buffer, the tensor gone first; each read gives the elements, the memory goes with the last of them. -/
def shareDemo : List ShOp :=
  [.make false true, .export 0 16, .export 0 16, .view 0, .take 1, .take 1, .drop 0 true false, .drop 2 true false, .drop 1 true false, .read 3, .read 4, .drop 3 true false, .read 4,
   .make true false, .export 5 16, .view 5, .drop 4 false false, .read 4]

example : ∀ q a, q ++ [a] <+: shareDemo → DropsWithLock (ShareEnv.start.run q).2 (buffersOf shareDemo) a := (C111_lock _).1 ⟨_, rfl⟩

example : (ShState.start.run shareDemo).bind (fun r => .ok (r.1, r.2.tensors.map ShTensor.freed)) =
    .ok ([.done, .done, .done, .done, .done, .refused, .done, .done, .done, .elements 0, .elements 0, .done, .elements 0, .done, .refused, .done, .done, .refused], [true, false]) := by rfl

/-- The hypotheses of `C111_locked` for a program with a taken capsule. -/
example : ∃ s, ShState.start.run [.make true true, .export 0 16, .take 1, .drop 0 true false, .read 2, .drop 2 true false] = .ok ([.done, .done, .done, .done, .elements 0, .done], s) ∧
    s.tensors = [⟨true, true, 0, true⟩] := ⟨_, rfl, rfl⟩

end Mlio
