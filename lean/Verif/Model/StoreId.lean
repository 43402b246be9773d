import Verif.Model.DataStore

/-!
# The identity of data stores

`id` of the data stores, `include/mlio/data_stores/data_store.h` 57-88 (comparison and hash), `src/mlio-py/mlio/core/data_store.cc` 56-65 and 110-117
(data stores written in Python).
-/

namespace Mlio

/-- A data store as its identity sees it: `File`, `In_memory_store` (with the address and the size of its memory), `S3_object`,
`Sagemaker_pipe`, or a class written in Python whose method `id` gives the name. -/
inductive AnyStore where
  | file (path : Bytes) (memoryMap : Bool) (compression : Compression)
  | memory (address size : Nat) (compression : Compression)
  | object (uri version : Bytes) (compression : Compression)
  | pipe (path : Bytes) (compression : Compression)
  | python (name : Bytes)
  deriving DecidableEq

/-- A hexadecimal digit. -/
def hexDigit (n : Nat) : UInt8 := if n < 10 then (48 + n).toUInt8 else (87 + n).toUInt8

/-- The hexadecimal digits of a number, as `fmt` writes them. -/
def hexDigits (n : Nat) : Bytes :=
  if h : n < 16 then [hexDigit n] else hexDigits (n / 16) ++ [hexDigit (n % 16)]
termination_by n
decreasing_by omega

/-- `fmt::format("{0:p}+{1:#04x}", ptr, size)`: `0x`, the address, `+0x`, the size with at least two digits. -/
def memoryId (address size : Nat) : Bytes :=
  [48, 120] ++ hexDigits address ++ [43, 48, 120] ++ (if size < 16 then 48 :: hexDigits size else hexDigits size)

/-- `id`: `file.h` 54-57, `in_memory_store.cc` 52-60, `s3_object.cc` 66-77, `sagemaker_pipe.h` 48-51. -/
def AnyStore.id : AnyStore → Bytes
  | .file path _ _ => path
  | .memory a n _ => memoryId a n
  | .object uri version _ => if version.isEmpty then uri else uri ++ [64] ++ version
  | .pipe path _ => path
  | .python name => name

/-- The string that `id` refers to, once `shared` is what the string shared by all classes written in Python holds:
`PYBIND11_OVERLOAD_PURE(const std::string &, …)` in `data_store.cc` 60 converts the result of the Python method into a `static`
object and returns a reference to it. -/
def AnyStore.idIn (shared : Bytes) : AnyStore → Bytes
  | .python _ => shared
  | s => s.id

/-- What the shared string holds after a call of `id`. -/
def AnyStore.share (s : AnyStore) (shared : Bytes) : Bytes :=
  match s with
  | .python name => name
  | _ => shared

/-- `lhs == rhs`, `data_store.h` 58-61: both `id` are called, in an order left to the compiler, then what they refer to is
compared. -/
def AnyStore.equal (leftFirst : Bool) (shared : Bytes) (a b : AnyStore) : Bool :=
  let shared := if leftFirst then b.share (a.share shared) else a.share (b.share shared)
  a.idIn shared == b.idIn shared

/-- `std::hash`, `data_store.h` 82-88, over the hash of strings. -/
def AnyStore.hash (hashString : Bytes → Nat) (shared : Bytes) (s : AnyStore) : Nat := hashString (s.idIn (s.share shared))

/-- The data store as it is opened, given what the memory of the process holds.  (SageMaker pipes are in
`Verif/Model/Sagemaker.lean`.) -/
def AnyStore.store (mem : Nat → UInt8) : AnyStore → Option Store
  | .file path mm c => some (.file path mm c)
  | .memory a n c => some (.memory ((List.range n).map fun i => mem (a + i)) c)
  | .object uri v c => some (.object uri v c)
  | .pipe _ _ => none
  | .python _ => none

end Mlio
