import Verif.Model.Schema
import Verif.Model.StoreId

/-!
# Comparing objects in Python

`__eq__` of the classes `DeviceKind`, `Device` (`py_device_array.cc` 149-176), `Attribute`, `Schema` (`schema.cc` 54-61 and 86-93) and `DataStore`
(`data_store.cc` 110-117), and what Python makes of it.  How pybind11 and Python behave here is from general knowledge of them; pybind11 is not in the
sandbox, and Python 3 was tried with a class that raises as described: a method
without `py::is_operator` raises `TypeError` for arguments of other classes (also for `None`) instead of returning `NotImplemented`, and the classes
inherit `__ne__` from `object`, which negates `__eq__`.  Left out: `AttributeList`, and subclasses that overwrite `__eq__`.
-/

namespace Mlio

/-- An object: of the library (data stores are those of its own classes), or some other object with an `__eq__` that gives `NotImplemented` for objects of
the library (`None`, numbers, strings, tuples), or an answer of its own. -/
inductive PyThing where
  | kind (name : Bytes)
  | device (kind : Bytes) (id : Nat)
  | attribute (a : Attr)
  | schema (s : Schema)
  | store (s : AnyStore)
  | foreign (answer : Option Bool)

/-- An object with its address. -/
structure PyItem where
  addr : Nat
  val : PyThing

/-- What `__eq__` gives. -/
inductive EqAns where
  | bool (b : Bool)
  | notImplemented
  | typeError
  deriving DecidableEq, Repr

/-- `operator==`, `device.h` 97-101, over that of kinds at 56-60. -/
def deviceEq (a b : Bytes × Nat) : Bool := a.1 == b.1 && a.2 == b.2

/-- `x.__eq__(y)`: `py_device_array.cc` 149-152 and 169-172, `schema.cc` 54-57 and 86-89, `data_store.cc` 110-113. -/
def eqMethod : PyThing → PyThing → EqAns
  | .kind a, .kind b => .bool (a == b)
  | .device a i, .device b j => .bool (deviceEq (a, i) (b, j))
  | .attribute a, .attribute b => .bool (a.eq b)
  | .schema a, .schema b => .bool (a.eq b)
  | .store a, .store b => .bool (a.equal true [] b)
  | .foreign none, _ => .notImplemented
  | .foreign (some b), _ => .bool b
  | _, _ => .typeError

/-- What an expression gives. -/
inductive PyTruth where
  | bool (b : Bool)
  | typeError
  deriving DecidableEq, Repr

/-- `x == y` and `x != y` (`negated`) in Python, over the methods at `schema.cc` 54-57: the method of `x`; if it gives `NotImplemented`, that of `y`; then the identity. -/
def pyCompare (negated : Bool) (x y : PyItem) : PyTruth :=
  match eqMethod x.val y.val with
  | .bool b => .bool (b != negated)
  | .typeError => .typeError
  | .notImplemented =>
    match eqMethod y.val x.val with
    | .bool b => .bool (b != negated)
    | .typeError => .typeError
    | .notImplemented => .bool ((x.addr == y.addr) != negated)

/-- `x in l` in Python, over the methods at `schema.cc` 54-57: identity, then `==`, with the member on the left (`memberFirst`) or on the right, as it is in different
versions of Python. -/
def pyIn (memberFirst : Bool) (x : PyItem) : List PyItem → PyTruth
  | [] => .bool false
  | y :: l =>
    if x.addr = y.addr then .bool true
    else
      match (if memberFirst then pyCompare false y x else pyCompare false x y) with
      | .typeError => .typeError
      | .bool true => .bool true
      | .bool false => pyIn memberFirst x l

/-- `std::hash<Device>`, `device.h` 130-141, over that of kinds at 122-128, and over the hashes of names and numbers. -/
def deviceHash (H : Hashes) (kind : Bytes) (id : Nat) : UInt64 := hashCombine (hashCombine 0 (H.str kind)) (H.size id)

/-- `x.__hash__()`: `py_device_array.cc` 153-156 and 173-176, `schema.cc` 58-61 and 90-93, `data_store.cc` 114-117; `none` for other objects. (How
Python shortens the number is left out.) -/
def hashMethod (H : Hashes) : PyThing → Option UInt64
  | .kind a => some (H.str a)
  | .device a i => some (deviceHash H a i)
  | .attribute a => some (a.hash H)
  | .schema s => some (s.hash H)
  | .store s => some (H.str (s.idIn (s.share [])))
  | .foreign _ => none

end Mlio
