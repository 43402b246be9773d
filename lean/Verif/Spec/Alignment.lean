import Verif.Model.Alignment

/-!
# Aligned reads
-/

namespace Mlio.Spec

/-- An integer of 4 bytes may be read at the address. -/
def Aligned (address : Nat) : Prop := 4 ∣ address

/-- All integers that a decoder reads of a chunk at `address` are aligned; `loads` gives the positions in the chunk. -/
def ReadsAligned (loads : Bytes → List Nat) (address : Nat) (chunk : Bytes) : Prop := ∀ p ∈ loads chunk, Aligned (address + p)

end Mlio.Spec
