import Verif.Basic

/-!
# Memory slices

`include/mlio/memory/memory_slice.h` 38-187, `src/mlio/memory/memory_slice.cc` 23-32 and
the casts in `include/mlio/util/cast.h` 45-55.
-/

namespace Mlio

/-- `2^64`, the number of values of `std::size_t`. -/
def W64 : Nat := 2 ^ 64

/-- `as_ssize`, `include/mlio/util/cast.h` 51-55: reinterpretation of a `std::size_t` as `std::ptrdiff_t`
(two's complement). -/
def asSsize (n : Nat) : Int :=
  let m := n % W64
  if m < 2 ^ 63 then (m : Int) else (m : Int) - (W64 : Int)

/-- A slice as its two pointers, measured from the start of the block
(`memory_slice.h` 184-186: `beg_`, `end_`). -/
structure PSlice where
  beg : Int
  fin : Int
  deriving DecidableEq, Repr

/-- `Memory_slice::size`, `memory_slice.h` 79-82. -/
def PSlice.size (s : PSlice) : Int := s.fin - s.beg

/-- `Memory_slice::validate_range` (`memory_slice.cc` 23-32) followed by the assignment of the two
pointers (`memory_slice.h` 119-139).
Simplification: comparing pointers that were moved outside of the block is treated as
comparison of addresses; the standard leaves it unspecified. -/
def PSlice.range (s : PSlice) (first last : Int) : Res PSlice :=
  if first > last then .err .invalidArgument
  else if first < s.beg ∨ last > s.fin then .err .invalidArgument
  else .ok ⟨first, last⟩

/-- `subslice(offset)`, `memory_slice.h` 89-97. -/
def PSlice.subslice1 (s : PSlice) (offset : Nat) : Res PSlice :=
  s.range (s.beg + asSsize offset) s.fin

/-- `subslice(offset, count)`, `memory_slice.h` 99-107.  `offset + count` is computed in `std::size_t`. -/
def PSlice.subslice (s : PSlice) (offset count : Nat) : Res PSlice :=
  s.range (s.beg + asSsize offset) (s.beg + asSsize ((offset + count) % W64))

/-- `first(count)`, `memory_slice.h` 141-149. -/
def PSlice.first (s : PSlice) (count : Nat) : Res PSlice :=
  s.range s.beg (s.beg + asSsize count)

/-- `last(count)`, `memory_slice.h` 161-169. -/
def PSlice.last (s : PSlice) (count : Nat) : Res PSlice :=
  s.range (s.fin - asSsize count) s.fin

/-- The value-level version used by the record readers: `chunk.subslice(offset, count)` on the
bytes of the slice, throwing when the range is not inside the slice. -/
def subslice (b : Bytes) (offset count : Nat) : Res Bytes :=
  if offset + count ≤ b.length then .ok ((b.drop offset).take count) else .err .invalidArgument

/-- `chunk.subslice(offset)` on bytes. -/
def subsliceFrom (b : Bytes) (offset : Nat) : Res Bytes :=
  if offset ≤ b.length then .ok (b.drop offset) else .err .invalidArgument

/-- `chunk.first(count)` on bytes. -/
def sliceFirst (b : Bytes) (count : Nat) : Res Bytes :=
  if count ≤ b.length then .ok (b.take count) else .err .invalidArgument

end Mlio
