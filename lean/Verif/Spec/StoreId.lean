import Verif.Spec.DataStore
import Verif.Model.StoreId

/-!
# What the identity of data stores is meant to be
-/

namespace Mlio.Spec

/-- The data stores stand for the same data: there are the same bytes behind them, and they are treated alike. -/
def SameData (w : World) (a b : Store) : Prop := a.compression = b.compression ∧ ∀ x, BytesBehind w a x ↔ BytesBehind w b x

/-- Two data stores of the same class of the library. -/
def SameClass : AnyStore → AnyStore → Prop
  | .file .., .file .. => True
  | .memory .., .memory .. => True
  | .object .., .object .. => True
  | .pipe .., .pipe .. => True
  | _, _ => False

/-- The compression that was given or inferred. -/
def compressionOf : AnyStore → Compression
  | .file _ _ c => c
  | .memory _ _ c => c
  | .object _ _ c => c
  | .pipe _ c => c
  | .python _ => .none

/-- The class is one of the library, not written in Python. -/
def Native : AnyStore → Prop
  | .python _ => False
  | _ => True

/-- The version of an object, or its URI if it has none, has no `@` in it. -/
def PlainVersion : AnyStore → Prop
  | .object uri version _ => if version = [] then (64 : UInt8) ∉ uri else (64 : UInt8) ∉ version
  | _ => True

end Mlio.Spec
