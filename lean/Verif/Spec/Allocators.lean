import Verif.Model.Allocators

/-!
# Which allocator serves, and where blocks are
-/

namespace Mlio.Spec

/-- The threshold that holds: the given one; for zero a quarter of the memory of the machine, at most 512 MiB. -/
def limit (ram t : Nat) : Nat :=
  if t ≠ 0 then t else if ram = 0 ∨ 4 * 536870912 ≤ ram then 536870912 else ram / 4

/-- The allocations of a sequence of calls, each with the allocator that has to serve it: the one that the program has
set last, otherwise the default one. -/
def served (default : Allocator) (chosen : Option Allocator) : List LibCall → List (Allocator × Nat)
  | [] => []
  | .initialize :: cs => served default chosen cs
  | .set a :: cs => served default a cs
  | .allocate n :: cs => (chosen.getD default, n) :: served default chosen cs

end Mlio.Spec
