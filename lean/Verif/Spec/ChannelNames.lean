import Verif.Spec.Sagemaker

/-! # Channels that can be named in several ways, for C48 -/

namespace Mlio.Spec

/-- At most one stream holds each channel, where `channel` says which channel a path names. -/
def ExclusiveChannels {χ : Type} (channel : Bytes → χ) (s : SmState) : Prop :=
  ∀ (i j : Nat) (a b : SmStream), s.streams[i]? = some a → s.streams[j]? = some b → HoldsChannel a → HoldsChannel b →
    channel a.path = channel b.path → i = j

/-- The numbers of the FIFOs of a channel that were opened, in order, whatever the paths were. -/
def channelNumbers {χ : Type} [DecidableEq χ] (channel : Bytes → χ) (s : SmState) (c : χ) : List Int :=
  (s.used.filter (fun u => channel u.1 = c)).map (·.2)

/-- The paths that streams were made for name different channels. -/
def OneNameEach {χ : Type} (channel : Bytes → χ) (os : List SmOp) : Prop :=
  ∀ p q fp fq, SmOp.make p fp ∈ os → SmOp.make q fq ∈ os → channel p = channel q → p = q

end Mlio.Spec
