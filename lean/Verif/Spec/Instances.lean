import Verif.Model.InstanceReaders

/-!
# What the instance readers should deliver, as functions on lists
-/

namespace Mlio

/-- `m.Yields s xs t`: successive reads from `s` return the instances `xs` in order, and after that every
read has the outcome `t` (`ok none` for the end of the dataset, or a permanent failure). -/
def Machine.Yields {α : Type} (m : Machine α) (s : m.σ) (xs : List α) (t : Res (Option α)) : Prop :=
  ∀ n, m.outs n s = (xs.map (fun x => Res.ok (some x)) ++ List.replicate n t).take n

/-- `m.ReadsTo s xs t`: successive reads from `s` return the instances `xs` in order, and the read after that has the
outcome `t`.  Nothing is said about reads after that. -/
def Machine.ReadsTo {α : Type} (m : Machine α) : m.σ → List α → Res (Option α) → Prop
  | s, [], t => (m.read s).1 = t
  | s, x :: xs, t => (m.read s).1 = .ok (some x) ∧ m.ReadsTo (m.read s).2 xs t

namespace Spec

/-- Skip `skip` instances, then at most `num`. -/
def range {α : Type} (skip : Nat) (num : Option Nat) (xs : List α) : List α :=
  match num with
  | none => xs.drop skip
  | some n => (xs.drop skip).take n

/-- The instances at the positions `i` with `i % n = k`. -/
def shard {α : Type} (n k : Nat) (xs : List α) : List α :=
  (xs.zipIdx.filter (fun p => p.2 % n = k)).map (·.1)

/-- Consecutive blocks of `n` instances; the last one may be shorter. -/
def blocks {α : Type} (n : Nat) (xs : List α) : List (List α) :=
  (List.range ((xs.length + (n - 1)) / n)).map (fun i => (xs.drop (i * n)).take n)

/-- The first `keep b` instances of every block of 100 instances, where `b` is the size of the block. -/
def sample {α : Type} (keep : Nat → Nat) (xs : List α) : List α :=
  (blocks 100 xs).flatMap (fun b => b.take (keep b.length))

/-- `ys` lists `xs` in another order, and the instance at place `k` of `ys` comes from one of the first
`k + w` places of `xs`. -/
def WindowShuffle {α : Type} (w : Nat) (xs ys : List α) : Prop :=
  ∃ idx : List Nat, idx.Perm (List.range xs.length) ∧ ys.map some = idx.map (fun i => xs[i]?) ∧
    ∀ (k : Nat) (i : Nat), idx[k]? = some i → i < k + w

end Spec
end Mlio

namespace Mlio.Spec

/-- Handlings under which a short last batch is dropped, and declared with the full size. -/
def dropsShort (h : LastHandling) : Bool := h = .drop ∨ h = .dropWarn
def padsShort (h : LastHandling) : Bool := h = .pad ∨ h = .padWarn

/-- The documented batches, numbered from `first`: the consecutive blocks of `b` instances; a short last
block is returned as it is, dropped or declared with size `b`. -/
def batchesFrom {α : Type} (first b : Nat) (h : LastHandling) (xs : List α) : List (Batch α) :=
  (((blocks b xs).zipIdx first).filter (fun p => p.1.length = b ∨ ¬ dropsShort h)).map
    (fun p => ⟨p.2, p.1, if padsShort h then b else p.1.length⟩)

def batches {α : Type} (b : Nat) (h : LastHandling) (xs : List α) : List (Batch α) := batchesFrom 0 b h xs

end Mlio.Spec
