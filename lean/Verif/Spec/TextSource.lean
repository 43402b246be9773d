import Verif.Model.TextSource
import Verif.Spec.Utf8Stream

/-!
# Streams over the bytes of a file
-/

namespace Mlio.Spec

/-- A stream delivers the contents: the next bytes with each read, at least one unless none was asked for or the contents end,
if no read asks for more than `B` bytes. -/
def DeliversAll (B : Nat) (m : InStream) (s : m.σ) (contents : Bytes) : Prop :=
  ∀ ns, (∀ n ∈ ns, n ≤ B) → TextReads false contents ns (m.reads s ns)

/-- The stream after some reads. -/
def afterReads (m : InStream) : m.σ → List Nat → m.σ
  | s, [] => s
  | s, n :: ns => afterReads m (m.read s n).2 ns

/-- The stream is at the beginning of the bytes: it delivers them, and if it is one in memory, it has all of them there. -/
structure AtStart (B : Nat) (m : SrcClass) (zeroCopy : Bool) (file : Bytes) (s : m.σ) : Prop where
  delivers : DeliversAll B m.toInStream s file
  whole : m.whole s = if zeroCopy then some file else none

/-- The stream is at the beginning of the bytes, and if it can seek, then after any reads it can be brought back there. -/
structure SourceOf (B : Nat) (m : SrcClass) (zeroCopy seekable : Bool) (file : Bytes) (s : m.σ) : Prop
    extends AtStart B m zeroCopy file s where
  rewinds : ∀ ns, (∀ n ∈ ns, n ≤ B) →
    match m.seek0 (afterReads m.toInStream s ns) with
    | none => seekable = false
    | some (.ok (), s') => seekable = true ∧ AtStart B m zeroCopy file s'
    | some _ => False

end Mlio.Spec
