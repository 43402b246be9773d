import Verif.Model.ChunkHeap

/-!
# Where payloads are, and when records are intact
-/

namespace Mlio.Spec

/-- The decoder only ever cuts: the payload of a record is the part of the chunk that starts at `off`, what is left is
the rest of the chunk behind the payload, and a record takes at least one byte. -/
structure Located (dec : Bytes → Bool → Dec Record) (off : Bytes → Bool → Nat) : Prop where
  got : ∀ x ig r rest, dec x ig = .got r rest → rest <:+ x ∧ rest.length < x.length ∧
    off x ig + r.payload.length + rest.length ≤ x.length ∧ (x.drop (off x ig)).take r.payload.length = r.payload
  more : ∀ x ig rest k, dec x ig = .more rest k → rest <:+ x
  fail : ∀ x ig e rest, dec x ig = .fail e rest → rest <:+ x

/-- Every existing record still shows the bytes that it showed when it was read. -/
def Intact (h : Heap) : Prop := ∀ r ∈ h.held, deref h.blocks r.1 = some r.2

/-- The reads among the operations, applied to the reader without memory. -/
def plainReads (dec : Bytes → Bool → Dec Record) : Reader → List HeapOp → List (Res (Option Record))
  | _, [] => []
  | st, .read fuel :: os => (Reader.readCore dec fuel st).1 :: plainReads dec (Reader.readCore dec fuel st).2 os
  | st, .copy _ :: os => .ok none :: plainReads dec st os
  | st, .release _ :: os => .ok none :: plainReads dec st os

end Mlio.Spec
