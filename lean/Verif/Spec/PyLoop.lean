import Verif.Model.PyLoop

/-!
# What loops over a reader are meant to see

A history is the list of calls of a program and what they ended with.
-/

namespace Mlio.Spec

variable {ε τ : Type}

/-- The number of calls of `reset`. -/
def resets (hist : List (LoopOp × LoopOut ε τ)) : Nat := hist.countP fun x => x.1 == .reset

/-- Whether a call has used up an example: it returned one and is not `peek`, or it made an element of it or could not. -/
def uses : LoopOp × LoopOut ε τ → Bool
  | (.peek, _) => false
  | (_, .example _) => true
  | (_, .element _) => true
  | (_, .missing) => true
  | (_, .mismatch) => true
  | _ => false

/-- The number of examples used up since the last `reset`. -/
def usedUp (hist : List (LoopOp × LoopOut ε τ)) : Nat := (hist.reverse.takeWhile fun x => x.1 != .reset).countP uses

/-- The dictionary has the requested features, each once, with the values they have in the example. -/
structure HasFeatures (lookup : ε → Bytes → Option τ) (features : List Bytes) (e : ε) (d : List (Bytes × τ)) : Prop where
  keys : ∀ f, f ∈ d.map Prod.fst ↔ f ∈ features
  once : (d.map Prod.fst).Nodup
  values : ∀ f t, (f, t) ∈ d → lookup e f = some t

/-- What a program sees, if `content n` are the examples of the epoch after `n` resets and what follows them: every call that gives an example, whether it is made by a loop, through
a dataset or directly, gives the first one that was not used up since the last reset; the end and errors come when all of them were used up. -/
structure LoopSession (content : Nat → List ε × Option Err) (lookup : ε → Bytes → Option τ) (features : List Bytes) (hist : List (LoopOp × LoopOut ε τ)) : Prop where
  given : ∀ (i : Nat) (c : LoopOp) e, hist[i]? = some (c, .example e) → (content (resets (hist.take i))).1[usedUp (hist.take i)]? = some e
  element : ∀ (i : Nat) (c : LoopOp) d, hist[i]? = some (c, .element d) →
    ∃ e, (content (resets (hist.take i))).1[usedUp (hist.take i)]? = some e ∧ HasFeatures lookup features e d
  missing : ∀ (i : Nat) (c : LoopOp), hist[i]? = some (c, .missing) →
    ∃ e, (content (resets (hist.take i))).1[usedUp (hist.take i)]? = some e ∧ ∃ f ∈ features, lookup e f = none
  ends : ∀ (i : Nat) (c : LoopOp) o, hist[i]? = some (c, o) → o = .noExample ∨ (c = .next ∧ o = .stop) →
    usedUp (hist.take i) = (content (resets (hist.take i))).1.length ∧ (content (resets (hist.take i))).2 = none
  raised : ∀ (i : Nat) (c : LoopOp) x, hist[i]? = some (c, .raised x) →
    usedUp (hist.take i) = (content (resets (hist.take i))).1.length ∧ (content (resets (hist.take i))).2 = some x

/-- What a loop that asks `m` times sees of examples and what follows them: the examples, and then for ever `StopIteration` or the error. -/
def loopSees (es : List ε) (ending : Option Err) (m : Nat) : List (LoopOut ε τ) :=
  (es.map LoopOut.example ++ List.replicate m (match ending with | none => LoopOut.stop | some x => LoopOut.raised x)).take m

/-- What an iteration over a dataset that asks `m` times is meant to see, for the dictionaries of the examples and what follows them: an error ends the iteration. -/
def iterationSees (ds : List (List (Bytes × τ))) (ending : Option Err) (m : Nat) : List (LoopOut ε τ) :=
  (ds.map LoopOut.element ++ (match ending with | none => [] | some x => [LoopOut.raised x]) ++ List.replicate m LoopOut.stop).take m

end Mlio.Spec
