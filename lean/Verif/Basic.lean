/-!
# Common vocabulary of the model

* `Bytes` – the contents of a memory slice.  A `Memory_slice`
  (`include/mlio/memory/memory_slice.h` 38-187) is a pair of pointers into a block;
  here a slice is represented by the bytes it denotes.  Pointer identity matters only for
  aliasing, which is modelled separately in `Verif/Model/ChunkHeap.lean`.
* `Err` – the C++ exception classes that the modelled code throws.
* `Res` – outcome of a call: a value, an exception, or undefined behaviour.
-/

namespace Mlio

/-- The bytes denoted by a slice or span. -/
abbrev Bytes := List UInt8

/-- Exceptions thrown by the modelled code (`include/mlio/record_readers/record_error.h`,
`include/mlio/data_reader_error.h`, `include/mlio/streams/stream_error.h`, standard exceptions), plus
`diverges`, which is not an exception but marks that a loop did not finish within the fuel
given to it. -/
inductive Err where
  | corruptRecord
  | corruptHeader
  | corruptFooter
  | recordTooLarge
  | invalidArgument
  | schemaError
  | invalidInstance
  | dataReader
  | streamError
  | inflateError
  | notSupported
  | systemError
  | formatError
  | diverges
  deriving DecidableEq, Repr

/-- Outcome of a C++ call. -/
inductive Res (α : Type) where
  | ok (a : α)
  | err (e : Err)
  | ub (why : String)
  deriving Repr, DecidableEq

namespace Res

/-- Sequencing: exceptions and undefined behaviour propagate. -/
@[simp] def bind {α β : Type} : Res α → (α → Res β) → Res β
  | ok a, f => f a
  | err e, _ => err e
  | ub w, _ => ub w

instance : Monad Res where
  pure := ok
  bind := bind

@[simp] theorem pure_eq {α : Type} (a : α) : (pure a : Res α) = ok a := rfl
@[simp] theorem bind_eq {α β : Type} (x : Res α) (f : α → Res β) : (x >>= f) = bind x f := rfl

/-- No undefined behaviour happened. -/
def NoUB {α : Type} : Res α → Prop
  | ub _ => False
  | _ => True

end Res

end Mlio
