import Verif.Basic

/-!
# Lifetime of data stores written in Python

`src/mlio-py/mlio/core/data_store.cc` 31-45, 109-116, `data_reader.cc` (bindings) 112-131, 313-318, 390 and of pybind11: an instance of a class that is derived in
Python from `DataStore` consists of a C++ object (`Py_data_store`) and a Python object, which are connected by the table of
registered instances.  The Python object lives as long as Python refers to it; C++ keeps the C++ object only (`Intrusive_ptr`).  A C++ object
that is handed to Python is represented by its registered Python object, or, if there is none any more, by a new instance of `DataStore`.
`PYBIND11_OVERLOAD_PURE` looks for the method in the registered Python object, and throws if it is not there.

Lists are not changed after they are made and parameters neither.  A reader opens any of its stores at any time (`openNth`).
-/

namespace Mlio

/-- What a Python reference to the data store `i` refers to: the object that was made for it, or one that was made later by pybind11 for the
C++ object. -/
inductive StoreRef where
  | made (i : Nat)
  | later (i : Nat)
  deriving DecidableEq, Repr

/-- Which data store that is. -/
def StoreRef.id : StoreRef → Nat
  | .made i => i
  | .later i => i

/-- What a variable holds.  Parameters and readers are C++ objects with a vector of `Intrusive_ptr<Data_store>`. -/
inductive StoreObj where
  | store (r : StoreRef)
  | list (rs : List StoreRef)
  | params (is : List Nat)
  | reader (is : List Nat)
  deriving DecidableEq, Repr

/-- The Python objects of data stores that a value refers to. -/
def StoreObj.refs : StoreObj → List StoreRef
  | .store r => [r]
  | .list rs => rs
  | _ => []

/-- The steps of a program; variables are numbers. -/
inductive StoreStep where
  /-- `x = MyStore()` (`python`), or `x = mlio.File(…)`. -/
  | make (x : Nat) (python : Bool)
  /-- `x = [y1, y2, …]`. -/
  | list (x : Nat) (ys : List Nat)
  /-- `x = mlio.DataReaderParams(dataset=y, …)`. -/
  | params (x y : Nat)
  /-- `x = y.dataset`. -/
  | dataset (x y : Nat)
  /-- `x = mlio.TextLineReader(y)`, or another reader. -/
  | reader (x y : Nat)
  /-- `x = y`. -/
  | assign (x y : Nat)
  /-- `del x`. -/
  | del (x : Nat)
  /-- `x.open_read()`. -/
  | «open» (x : Nat)
  /-- The reader `x` opens the data store with this number in its dataset. -/
  | openNth (x n : Nat)
  deriving DecidableEq, Repr

/-- What a step ends with: nothing, a data store was opened (by its own `open_read`), "Tried to call pure virtual function", or another exception (a
variable without value or of another type, an index out of range). -/
inductive StoreOut where
  | done
  | opened (i : Nat)
  | pureVirtual
  | error
  deriving DecidableEq, Repr

/-- A program in execution: its variables and, for each data store made so far, whether it is written in Python. -/
structure StoreProg where
  vars : List (Option StoreObj)
  python : List Bool
  deriving DecidableEq, Repr

/-- The value of a variable. -/
def StoreProg.get (s : StoreProg) (x : Nat) : Option StoreObj := (s.vars[x]?).join

/-- Assignment. -/
def StoreProg.set (s : StoreProg) (x : Nat) (v : Option StoreObj) : StoreProg := { s with vars := s.vars.set x v }

/-- Whether the Python object that was made for the data store still exists: Python frees it with the last reference. -/
def StoreProg.alive (s : StoreProg) (i : Nat) : Bool :=
  s.vars.any (fun v => match v with
    | some o => o.refs.contains (.made i)
    | none => false)

/-- The cast of an `Intrusive_ptr<Data_store>` to Python. -/
def StoreProg.toPython (s : StoreProg) (i : Nat) : StoreRef := if s.alive i then .made i else .later i

/-- `Data_store::open_read`, which for a data store written in Python is `Py_data_store::open_read`, `data_store.cc` 41-45. -/
def StoreProg.openRead (s : StoreProg) (i : Nat) : StoreOut :=
  if s.python.getD i false && !s.alive i then .pureVirtual else .opened i

/-- The elements of a list display; all of them must be data stores. -/
def StoreProg.getAll (s : StoreProg) : List Nat → Option (List StoreRef)
  | [] => some []
  | y :: ys => match s.get y, s.getAll ys with
    | some (.store r), some rs => some (r :: rs)
    | _, _ => none

/-- A step. -/
def StoreProg.step (s : StoreProg) : StoreStep → StoreOut × StoreProg
  | .make x python =>
    (.done, StoreProg.set { s with python := s.python ++ [python] } x (some (.store (.made s.python.length))))
  | .list x ys => match s.getAll ys with
    | some rs => (.done, s.set x (some (.list rs)))
    | none => (.error, s)
  | .params x y => match s.get y with
    | some (.list rs) => (.done, s.set x (some (.params (rs.map StoreRef.id))))
    | _ => (.error, s)
  | .dataset x y => match s.get y with
    | some (.params is) => (.done, s.set x (some (.list (is.map s.toPython))))
    | _ => (.error, s)
  | .reader x y => match s.get y with
    | some (.params is) => (.done, s.set x (some (.reader is)))
    | _ => (.error, s)
  | .assign x y => match s.get y with
    | some v => (.done, s.set x (some v))
    | none => (.error, s)
  | .del x => match s.get x with
    | some _ => (.done, s.set x none)
    | none => (.error, s)
  | .open x => match s.get x with
    | some (.store r) => (s.openRead r.id, s)
    | _ => (.error, s)
  | .openNth x n => match s.get x with
    | some (.reader is) => match is[n]? with
      | some i => (s.openRead i, s)
      | none => (.error, s)
    | _ => (.error, s)

/-- A program. -/
def StoreProg.run (s : StoreProg) : List StoreStep → List StoreOut × StoreProg
  | [] => ([], s)
  | a :: as => let (o, s1) := s.step a; let (os, s2) := s1.run as; (o :: os, s2)

end Mlio
