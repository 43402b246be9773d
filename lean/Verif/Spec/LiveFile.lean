import Verif.Model.LiveFile
import Verif.Spec.HeldText

/-! # How files change, for C116 -/

namespace Mlio.Spec

/-- The file is only appended to. -/
def OnlyGrows : LiveFile → List (LiveFile × Nat × Nat) → Prop
  | _, [] => True
  | f, r :: rs => f.bytes <+: r.1.bytes ∧ OnlyGrows r.1 rs

/-- The file is only cut. -/
def OnlyCut : LiveFile → List (LiveFile × Nat × Nat) → Prop
  | _, [] => True
  | f, r :: rs => r.1.bytes <+: f.bytes ∧ OnlyCut r.1 rs

/-- The file stays as it is. -/
def FileStays (f : LiveFile) (rs : List (LiveFile × Nat × Nat)) : Prop := ∀ r ∈ rs, r.1 = f

/-- No read has failed. -/
def AllRead (os : List (Res Bytes)) : Prop := ∀ o ∈ os, ∃ x, o = .ok x

/-- The file is only appended to, from read to read. -/
def GrowsForth (f : LiveFile) (fs : Nat → LiveFile × Nat) : Prop := f.bytes <+: (fs 0).1.bytes ∧ ∀ k, (fs k).1.bytes <+: (fs (k + 1)).1.bytes

/-- The file is only cut, from read to read. -/
def CutForth (f : LiveFile) (fs : Nat → LiveFile × Nat) : Prop := (fs 0).1.bytes <+: f.bytes ∧ ∀ k, (fs (k + 1)).1.bytes <+: (fs k).1.bytes

end Mlio.Spec
