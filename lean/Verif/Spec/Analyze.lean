import Verif.Model.Analyze
import Verif.Spec.Gil
import Verif.Spec.Pipeline

/-! # What users of `analyze_dataset` rely on -/

namespace Mlio.Spec

section
variable {α ε ρ : Type} {m : Machine (Batch α)}

/-- The states that a call of `analyze_dataset` on a new reader leads to. -/
def Analyzing (rel : Bool) (L : Logs m) (P Q : Nat) (dec : Batch α → Except Err (Option ε)) (fin : List ε → Res ρ)
    (s : AState m ε ρ) : Prop :=
  ∃ s0 as, analyzeCall rel (GState.init m ε) = some s0 ∧ arun L P Q dec fin as s0 = some s

/-- Nothing can happen any more. -/
def AEnd (L : Logs m) (P Q : Nat) (dec : Batch α → Except Err (Option ε)) (fin : List ε → Res ρ) (s : AState m ε ρ) : Prop :=
  ∀ a, astep L P Q dec fin a s = none

/-- The batch reader after `k` reads. -/
def readerAfter (m : Machine (Batch α)) : Nat → m.σ → m.σ
  | 0, s => s
  | k + 1, s => readerAfter m k (m.read s).2

/-- To read the dataset the background thread needs the lock of the interpreter: for reading some of the batches or for the
last read, which finds the end; or for decoding some batch. -/
def NeedsLock (L : Logs m) (bs : List (Batch α)) : Prop :=
  (∃ k, k ≤ bs.length ∧ 0 < L.src (readerAfter m k m.init)) ∨ ∃ b ∈ bs, 0 < L.dec b

/-- The dataset can be read and decoded to its end. -/
def Sound {β : Type} (dec : β → Except Err (Option ε)) (bs : List β) (t : Res (Option β)) : Prop :=
  t = .ok none ∧ ∀ b ∈ bs, ∃ r, dec b = .ok r

end

end Mlio.Spec
