import Verif.Model.Schema

/-!
# Examples and schemas as Python objects

`src/mlio-py/mlio/core/example.cc`, `schema.cc`, `module.h` 27.  Python destroys an object as soon as nothing refers to
it (CPython).  `PYBIND11_DECLARE_HOLDER_TYPE(T, Intrusive_ptr<T>, true)`: the Python object of an example, a schema or a
tensor holds one reference to it, so that the C++ object lives as long as its Python object (reference counting itself is
`Model/RefCount.lean`).  What `pybind11` does is modelled as far as the code uses it: conversion of arguments,
`make_iterator`, `bind_vector`.  `T` are the tensors; the null pointer is `none`.
-/

namespace Mlio

/-- The argument of `example[...]` and `... in example`: text, an integer, or something else. -/
inductive PyKey where
  | name (n : Bytes)
  | index (i : Int)
  | other
  deriving DecidableEq, Repr

/-- What a Python statement gives. -/
inductive PyAns (T : Type) where
  | done
  | tensor (t : Option T)
  | num (n : Nat)
  | bool (b : Bool)
  | keyError
  | typeError
  | valueError
  | stopIteration
  deriving DecidableEq, Repr

/-- What a Python variable refers to. -/
inductive PyTarget (T : Type) where
  | nothing
  | ex (e : Nat)
  | iter (k : Nat)
  | tensor (t : Option T)
  deriving DecidableEq, Repr

/-- An `Example` object, and whether it still exists. -/
structure PyEx (T : Type) where
  ex : Example (Option T)
  alive : Bool

/-- `iterator_state` of `pybind11::make_iterator`: the two vector iterators point into the features of example `of`. -/
structure PyIter where
  of : Nat
  pos : Nat
  firstOrDone : Bool
  deriving DecidableEq, Repr

/-- The variables of a Python program, and its objects.  `kept` are the examples that C++ code refers to, such as
`peeked_example_` of a reader. -/
structure PyWorld (T : Type) where
  vars : List (PyTarget T)
  exs : List (PyEx T)
  iters : List PyIter
  kept : List Nat

/-- Statements of a Python program that deal with examples. -/
inductive PyStep (T : Type) where
  /-- `x = Example(Schema(attrs), features)`; `None` is possible for the schema and for each of the features -/
  | make (x : Nat) (attrs : Option (List Attr)) (fs : List (Option T))
  /-- `x = y` -/
  | assign (x y : Nat)
  /-- `del x`, or the end of the scope of a variable -/
  | del (x : Nat)
  /-- C++ code begins to refer to the example in `x` -/
  | keep (x : Nat)
  /-- C++ code no longer refers to examples -/
  | unkeep
  /-- `x = iter(y)` -/
  | iter (x y : Nat)
  /-- `x = next(y)` -/
  | next (x y : Nat)
  /-- `x = y[k]` -/
  | get (x y : Nat) (k : PyKey)
  /-- `k in y` -/
  | has (y : Nat) (k : PyKey)
  /-- `len(y)` -/
  | len (y : Nat)

/-- Variable `x`. -/
def PyWorld.var {T : Type} (w : PyWorld T) (x : Nat) : PyTarget T := w.vars.getD x .nothing

/-- Assignment to variable `x`. -/
def PyWorld.setVar {T : Type} (w : PyWorld T) (x : Nat) (v : PyTarget T) : PyWorld T := { w with vars := w.vars.set x v }

/-- Something refers to example `e`.  An iterator does not: `make_iterator` in `example.cc` 79-82 is given the two vector
iterators only, and there is no `keep_alive`. -/
def PyWorld.held {T : Type} (w : PyWorld T) (e : Nat) : Bool :=
  w.vars.any (fun v => match v with | .ex e' => e' == e | _ => false) || w.kept.contains e

/-- Objects that nothing refers to are destroyed. -/
def PyWorld.sweep {T : Type} (w : PyWorld T) : PyWorld T :=
  { w with exs := w.exs.mapIdx fun e o => { o with alive := o.alive && w.held e } }

/-- `get_feature`, `example.cc` 28-45, and the choice of the overload, 69-70: integers that are not of type
`std::size_t` and other objects match neither.  Positions are less than 2^64. -/
def pyGet {T : Type} (e : Example (Option T)) : PyKey → Res (PyAns T)
  | .name n =>
    match e.findFeature n with
    | .ok (some (some t)) => .ok (.tensor (some t))
    | .ok _ => .ok .keyError
    | .err x => .err x
    | .ub u => .ub u
  | .index i =>
    if i < 0 then .ok .typeError
    else match e.features[i.toNat]? with
      | some t => .ok (.tensor t)
      | none => .ok .keyError
  | .other => .ok .typeError

/-- `__contains__`, `example.cc` 71-78. -/
def pyHas {T : Type} (e : Example (Option T)) : PyKey → PyAns T
  | .name n => .bool (e.schema.getIndex n).isSome
  | .index i => if i < 0 then .typeError else .bool (i.toNat < e.features.length)
  | .other => .typeError

/-- `Example.__init__`, `example.cc` 53-54: `pybind11` turns `None` into a null pointer, and `Example::Example`
(`src/mlio/example.cc` 32-39) uses the schema. -/
def pyMake {T : Type} (attrs : Option (List Attr)) (fs : List (Option T)) : Res (Example (Option T)) :=
  match attrs with
  | none => .ub "null pointer"
  | some as =>
    match makeSchema as with
    | .ok s => newExample s fs
    | .err e => .err e
    | .ub u => .ub u

/-- `__next__` of `pybind11::make_iterator`: go forward except at the first call and at the end, compare with the end,
read the element. -/
def PyIter.next {T : Type} (it : PyIter) (o : PyEx T) : Res (Option (Option T) × PyIter) :=
  let pos := if it.firstOrDone then it.pos else it.pos + 1
  if pos = o.ex.features.length then .ok (none, { it with pos, firstOrDone := true })
  else if o.alive then
    match o.ex.features[pos]? with
    | some t => .ok (some t, { it with pos, firstOrDone := false })
    | none => .ub "index out of range"
  else .ub "use after free"

/-- One statement. -/
def PyWorld.step {T : Type} (w : PyWorld T) : PyStep T → Res (PyAns T × PyWorld T)
  | .make x s fs =>
    match pyMake s fs with
    | .ok e => .ok (.done, (PyWorld.setVar { w with exs := w.exs ++ [⟨e, true⟩] } x (.ex w.exs.length)).sweep)
    | .err _ => .ok (.valueError, w)
    | .ub u => .ub u
  | .assign x y => .ok (.done, (w.setVar x (w.var y)).sweep)
  | .del x => .ok (.done, (w.setVar x .nothing).sweep)
  | .keep x =>
    match w.var x with
    | .ex e => .ok (.done, { w with kept := e :: w.kept })
    | _ => .ok (.typeError, w)
  | .unkeep => .ok (.done, (PyWorld.sweep { w with kept := [] }))
  | .iter x y =>
    match w.var y with
    | .ex e => .ok (.done, (PyWorld.setVar { w with iters := w.iters ++ [⟨e, 0, true⟩] } x (.iter w.iters.length)).sweep)
    | _ => .ok (.typeError, w)
  | .next x y =>
    match w.var y with
    | .iter k =>
      match w.iters[k]? with
      | some it =>
        match w.exs[it.of]? with
        | some o =>
          match it.next o with
          | .ok (some t, it') => .ok (.tensor t, (PyWorld.setVar { w with iters := w.iters.set k it' } x (.tensor t)).sweep)
          | .ok (none, it') => .ok (.stopIteration, { w with iters := w.iters.set k it' })
          | .err e => .err e
          | .ub u => .ub u
        | none => .ub "no such object"
      | none => .ub "no such object"
    | _ => .ok (.typeError, w)
  | .get x y k =>
    match w.var y with
    | .ex e =>
      match w.exs[e]? with
      | some o =>
        match pyGet o.ex k with
        | .ok (.tensor t) => .ok (.tensor t, (w.setVar x (.tensor t)).sweep)
        | .ok a => .ok (a, w)
        | .err e => .err e
        | .ub u => .ub u
      | none => .ub "no such object"
    | _ => .ok (.typeError, w)
  | .has y k =>
    match w.var y with
    | .ex e => match w.exs[e]? with
      | some o => .ok (pyHas o.ex k, w)
      | none => .ub "no such object"
    | _ => .ok (.typeError, w)
  | .len y =>
    match w.var y with
    | .ex e => match w.exs[e]? with
      | some o => .ok (.num o.ex.features.length, w)
      | none => .ub "no such object"
    | _ => .ok (.typeError, w)

/-- A program: what its statements give. -/
def PyWorld.run {T : Type} (w : PyWorld T) : List (PyStep T) → Res (List (PyAns T))
  | [] => .ok []
  | p :: ps =>
    match w.step p with
    | .ok (a, w') =>
      match w'.run ps with
      | .ok as => .ok (a :: as)
      | .err e => .err e
      | .ub u => .ub u
    | .err e => .err e
    | .ub u => .ub u

/-- The beginning of a program with `n` variables. -/
def PyWorld.start (T : Type) (n : Nat) : PyWorld T := ⟨List.replicate n .nothing, [], [], []⟩

end Mlio
