import Verif.Model.PyAlive

/-!
# What programs with data stores are meant to do

Values of Python, without lifetimes: a data store is what it is, wherever it is.
-/

namespace Mlio.Spec

/-- A value: a data store, a list of data stores, parameters with a dataset, a reader with a dataset. -/
inductive Val where
  | store (i : Nat)
  | list (is : List Nat)
  | params (is : List Nat)
  | reader (is : List Nat)
  deriving DecidableEq, Repr

/-- Variables, and the number of data stores made so far. -/
structure Env where
  vars : List (Option Val)
  made : Nat
  deriving DecidableEq, Repr

def Env.get (e : Env) (x : Nat) : Option Val := (e.vars[x]?).join

def Env.set (e : Env) (x : Nat) (v : Option Val) : Env := { e with vars := e.vars.set x v }

/-- The data stores in variables. -/
def Env.stores (e : Env) : List Nat → Option (List Nat)
  | [] => some []
  | y :: ys => match e.get y, e.stores ys with
    | some (.store i), some is => some (i :: is)
    | _, _ => none

/-- The meaning of a step. -/
def Env.step (e : Env) : StoreStep → StoreOut × Env
  | .make x _ => (.done, Env.set { e with made := e.made + 1 } x (some (.store e.made)))
  | .list x ys => match e.stores ys with
    | some is => (.done, e.set x (some (.list is)))
    | none => (.error, e)
  | .params x y => match e.get y with
    | some (.list is) => (.done, e.set x (some (.params is)))
    | _ => (.error, e)
  | .dataset x y => match e.get y with
    | some (.params is) => (.done, e.set x (some (.list is)))
    | _ => (.error, e)
  | .reader x y => match e.get y with
    | some (.params is) => (.done, e.set x (some (.reader is)))
    | _ => (.error, e)
  | .assign x y => match e.get y with
    | some v => (.done, e.set x (some v))
    | none => (.error, e)
  | .del x => match e.get x with
    | some _ => (.done, e.set x none)
    | none => (.error, e)
  | .open x => match e.get x with
    | some (.store i) => (.opened i, e)
    | _ => (.error, e)
  | .openNth x n => match e.get x with
    | some (.reader is) => match is[n]? with
      | some i => (.opened i, e)
      | none => (.error, e)
    | _ => (.error, e)

def Env.run (e : Env) : List StoreStep → List StoreOut × Env
  | [] => ([], e)
  | a :: as => let (o, e1) := e.step a; let (os, e2) := e1.run as; (o :: os, e2)

/-- With `n` variables, none of which has a value. -/
def Env.start (n : Nat) : Env := ⟨List.replicate n none, 0⟩

/-- The program has the data store in a variable or in a list in a variable. -/
def Env.Holds (e : Env) (i : Nat) : Prop :=
  ∃ x, e.get x = some (.store i) ∨ ∃ is, e.get x = some (.list is) ∧ i ∈ is

/-- From when it was made up to the end of the program, the program has held the data store after each step. -/
def AlwaysHeld (n : Nat) (prog : List StoreStep) (i : Nat) : Prop :=
  ∀ q, q <+: prog → i < ((Env.start n).run q).2.made → ((Env.start n).run q).2.Holds i

/-- Whether the data store `i` of a program is written in Python: of the steps that make data stores, the `i`th says so. -/
def WrittenInPython (prog : List StoreStep) (i : Nat) : Prop :=
  (prog.filterMap (fun a => match a with | .make _ python => some python | _ => none))[i]? = some true

end Mlio.Spec
