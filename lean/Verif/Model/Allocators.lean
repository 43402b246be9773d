import Verif.Model.Memory

/-!
# Memory allocators, and which of them is used

`src/mlio/memory/file_backed_memory_allocator.cc`, `memory_allocator.cc`, `src/mlio/init.cc`.  Blocks and their resizing
are in `Model/Memory.lean`.  `ram` is what `get_total_ram` returns (`detail/system_info.cc` 30-37), zero if unknown.
-/

namespace Mlio

/-- `default_oversize_threshold`, `file_backed_memory_allocator.cc` 99-112. -/
def defaultThreshold (ram : Nat) : Nat := if ram = 0 then 0x20000000 else min (ram / 4) 0x20000000

/-- `File_backed_memory_allocator::File_backed_memory_allocator`, `file_backed_memory_allocator.cc` 119-125. -/
def newFileBacked (ram t : Nat) : Allocator := .fileBacked (if t = 0 then defaultThreshold ram else t)

/-- How many bytes of the process heap a block of the library takes: `Hybrid_memory_block` has an inner block of either
kind, `file_backed_memory_allocator.cc` 35-65. -/
def Block.onHeap (b : Block) : Nat :=
  match b.kind with
  | .heap => b.data.length
  | .fixed => b.data.length
  | .fileBacked => 0
  | .hybrid inFile _ => if inFile then 0 else b.data.length

/-- `memory_allocator_`, `memory_allocator.cc` 26, and `initialized`, `init.cc` 29. -/
structure Lib where
  alloc : Option Allocator
  initialized : Bool

/-- The calls: `initialize()`, `set_memory_allocator(a)`, `memory_allocator().allocate(n)`. -/
inductive LibCall where
  | initialize
  | set (a : Option Allocator)
  | allocate (n : Nat)

/-- `init.cc` 27-39, `memory_allocator.cc` 33-41. -/
def Lib.call (junk : Nat → UInt8) (ram : Nat) (l : Lib) : LibCall → Res (Option Block × Lib)
  | .initialize => if l.initialized then .ok (none, l) else .ok (none, ⟨some (newFileBacked ram 0), true⟩)
  | .set a => .ok (none, { l with alloc := a })
  | .allocate n =>
    match l.alloc with
    | some a => .ok (some (a.allocate junk n), l)
    | none => .ub "null pointer"

/-- A sequence of calls: the blocks that were allocated. -/
def Lib.calls (junk : Nat → UInt8) (ram : Nat) (l : Lib) : List LibCall → Res (List Block)
  | [] => .ok []
  | c :: cs =>
    match l.call junk ram c with
    | .ok (b, l') =>
      match l'.calls junk ram cs with
      | .ok bs => .ok (b.toList ++ bs)
      | .err e => .err e
      | .ub u => .ub u
    | .err e => .err e
    | .ub u => .ub u

end Mlio
