import Verif.Model.PyExample

/-!
# What examples are for a Python program

An example is a list of named features.  Variables refer to examples, to iterators and to features; an iterator knows
which features are still to come.  Nothing is ever destroyed.  The statements and what they give (`PyStep`, `PyAns`) are
those of the language.
-/

namespace Mlio.Spec

/-- The variables, the examples, the iterators (each with the example it belongs to and what is to come), and the
examples that C++ code refers to. -/
structure PyMem (T : Type) where
  vars : List (PyTarget T)
  exs : List (List (Bytes × T))
  iters : List (Nat × List T)
  kept : List Nat

/-- The beginning of a program with `n` variables. -/
def PyMem.start (T : Type) (n : Nat) : PyMem T := ⟨List.replicate n .nothing, [], [], []⟩

/-- The variable. -/
def PyMem.var {T : Type} (w : PyMem T) (x : Nat) : PyTarget T := w.vars.getD x .nothing

/-- The features, if none of them is `None`. -/
def tensors {T : Type} : List (Option T) → Option (List T)
  | [] => some []
  | none :: _ => none
  | some t :: fs => (tensors fs).map (t :: ·)

/-- `Example(Schema(attrs), fs)`: each attribute has its own name, and there is one feature for each. -/
def named {T : Type} (attrs : List Attr) (fs : List T) : Option (List (Bytes × T)) :=
  if (attrs.map Attr.name).Nodup ∧ attrs.length = fs.length then some ((attrs.map Attr.name).zip fs) else none

/-- `e[k]` -/
def lookup {T : Type} (e : List (Bytes × T)) : PyKey → PyAns T
  | .name n =>
    match e.find? (fun p => p.1 == n) with
    | some p => .tensor (some p.2)
    | none => .keyError
  | .index i =>
    if i < 0 then .typeError
    else match e[i.toNat]? with
      | some p => .tensor (some p.2)
      | none => .keyError
  | .other => .typeError

/-- `k in e` -/
def contains {T : Type} (e : List (Bytes × T)) : PyKey → PyAns T
  | .name n => .bool (e.any fun p => p.1 == n)
  | .index i => if i < 0 then .typeError else .bool (i.toNat < e.length)
  | .other => .typeError

/-- What a statement gives, and what holds after it. -/
def PyMem.step {T : Type} (w : PyMem T) : PyStep T → PyAns T × PyMem T
  | .make x attrs fs =>
    match attrs, tensors fs with
    | some as, some ts =>
      match named as ts with
      | some e => (.done, { w with exs := w.exs ++ [e], vars := w.vars.set x (.ex w.exs.length) })
      | none => (.valueError, w)
    | _, _ => (.typeError, w)
  | .assign x y => (.done, { w with vars := w.vars.set x (w.var y) })
  | .del x => (.done, { w with vars := w.vars.set x .nothing })
  | .keep x =>
    match w.var x with
    | .ex e => (.done, { w with kept := e :: w.kept })
    | _ => (.typeError, w)
  | .unkeep => (.done, { w with kept := [] })
  | .iter x y =>
    match w.var y with
    | .ex e =>
      (.done, { w with iters := w.iters ++ [(e, (w.exs.getD e []).map Prod.snd)]
                       vars := w.vars.set x (.iter w.iters.length) })
    | _ => (.typeError, w)
  | .next x y =>
    match w.var y with
    | .iter k =>
      match w.iters[k]? with
      | some (e, t :: ts) =>
        (.tensor (some t), { w with iters := w.iters.set k (e, ts), vars := w.vars.set x (.tensor (some t)) })
      | _ => (.stopIteration, w)
    | _ => (.typeError, w)
  | .get x y k =>
    match w.var y with
    | .ex e =>
      match lookup (w.exs.getD e []) k with
      | .tensor t => (.tensor t, { w with vars := w.vars.set x (.tensor t) })
      | a => (a, w)
    | _ => (.typeError, w)
  | .has y k =>
    match w.var y with
    | .ex e => (contains (w.exs.getD e []) k, w)
    | _ => (.typeError, w)
  | .len y =>
    match w.var y with
    | .ex e => (.num (w.exs.getD e []).length, w)
    | _ => (.typeError, w)

/-- What the statements of a program give. -/
def PyMem.run {T : Type} (w : PyMem T) : List (PyStep T) → List (PyAns T)
  | [] => []
  | p :: ps => (w.step p).1 :: (w.step p).2.run ps

/-- Some variable, or C++ code, refers to example `e`. -/
def PyMem.Refers {T : Type} (w : PyMem T) (e : Nat) : Prop := .ex e ∈ w.vars ∨ e ∈ w.kept

/-- In this state of the program, the statement passes objects where objects are needed; and if it takes a feature from
an iterator, something refers to the example. -/
def PyMem.Fine {T : Type} (w : PyMem T) : PyStep T → Prop
  | .make _ attrs fs => attrs ≠ none ∧ none ∉ fs
  | .next _ y => ∀ k e t ts, w.var y = .iter k → w.iters[k]? = some (e, t :: ts) → w.Refers e
  | _ => True

/-- All statements of the program are of that kind. -/
def PyMem.AllFine {T : Type} (w : PyMem T) : List (PyStep T) → Prop
  | [] => True
  | p :: ps => w.Fine p ∧ (w.step p).2.AllFine ps

end Mlio.Spec
