import Verif.Model.PySchema

/-!
# What a schema is for a Python program

A list of attributes that never changes; an attribute in a variable is that attribute.
-/

namespace Mlio.Spec

/-- The position of the attribute with name `n`. -/
def position (n : Bytes) : List Attr → Option Nat
  | [] => none
  | a :: as => if a.name = n then some 0 else (position n as).map (· + 1)

/-- What a statement gives for the schema `as` and the attributes in variables, and the variables afterwards. -/
def schemaStep {T : Type} (as : List Attr) (vars : List Attr) : SchemaStep T → SchemaAns T × List Attr
  | .attrs => (.attrs as, vars)
  | .index n => (.index (position n as), vars)
  | .eq bs => (.bool (as = bs), vars)
  | .ref i =>
    match as[i]? with
    | some a => (.done, vars ++ [a])
    | none => (.indexError, vars)
  | .look r =>
    match vars[r]? with
    | some a => (.attr a, vars)
    | none => (.indexError, vars)
  | .feature fs n =>
    if as.length = fs.length then (.feature ((position n as).bind fun i => fs[i]?), vars) else (.valueError, vars)
  | .append _ => (.notAllowed, vars)
  | .assign _ _ => (.notAllowed, vars)
  | .pop => (.notAllowed, vars)
  | .clear => (.notAllowed, vars)

/-- What the statements of a program give. -/
def schemaRun {T : Type} (as : List Attr) (vars : List Attr) : List (SchemaStep T) → List (SchemaAns T)
  | [] => []
  | p :: ps => (schemaStep as vars p).1 :: schemaRun as (schemaStep as vars p).2 ps

/-- The statement only looks at the schema. -/
def Looks {T : Type} : SchemaStep T → Prop
  | .append _ => False
  | .assign _ _ => False
  | .pop => False
  | .clear => False
  | _ => True

end Mlio.Spec
