import Verif.Model.PyExample

/-!
# Schemas as Python objects

`src/mlio-py/mlio/core/schema.cc`.  `Schema.attributes` (95) gives the vector in the schema itself as an `AttributeList`:
`PYBIND11_MAKE_OPAQUE` (`module.h` 29) and `bind_vector` (75) make `std::vector<Attribute>` a Python class with the
methods of a list, and the `const` of the reference is lost.  `schema.attributes[i]` refers to the element within the
vector.  The vector is copied when the schema is made (`py::init<std::vector<Attribute>>`, 81), so that it has no room
to grow; it doubles when it must.  Only methods that are used most are modelled; positions are not negative.
-/

namespace Mlio

deriving instance DecidableEq for Attr

/-- A schema, and the memory of its vector: how many elements have room, and how many times it was allocated again. -/
structure PySchema where
  schema : Schema
  cap : Nat
  gen : Nat

/-- A Python object `schema.attributes[i]`: a reference to element `i` in the memory with number `gen`. -/
structure AttrRef where
  gen : Nat
  i : Nat
  deriving DecidableEq, Repr

/-- What a statement gives. -/
inductive SchemaAns (T : Type) where
  | done
  | attrs (as : List Attr)
  | attr (a : Attr)
  | index (i : Option Nat)
  | bool (b : Bool)
  | feature (t : Option T)
  | indexError
  | valueError
  | notAllowed
  deriving DecidableEq

/-- Statements of a Python program about one schema. -/
inductive SchemaStep (T : Type) where
  /-- `list(schema.attributes)`, looked at at once -/
  | attrs
  /-- `schema.get_index(n)` -/
  | index (n : Bytes)
  /-- `schema == Schema(as)` -/
  | eq (as : List Attr)
  /-- `r = schema.attributes[i]`, for a new variable `r` -/
  | ref (i : Nat)
  /-- looking at the attribute in variable `r` -/
  | look (r : Nat)
  /-- `Example(schema, fs)[n]`, by the program or by a reader that has this schema -/
  | feature (fs : List T) (n : Bytes)
  /-- `schema.attributes.append(a)` -/
  | append (a : Attr)
  /-- `schema.attributes[i] = a` -/
  | assign (i : Nat) (a : Attr)
  /-- `schema.attributes.pop()` -/
  | pop
  /-- `schema.attributes.clear()` -/
  | clear

/-- The schema and the variables. -/
structure SchemaWorld where
  obj : PySchema
  refs : List AttrRef

/-- Another list of attributes in the same object; the map of the names (`schema.h` 117-118) stays. -/
def PySchema.put (o : PySchema) (as : List Attr) : PySchema := { o with schema := { o.schema with attrs := as } }

/-- `bind_vector`'s `append`: `push_back`. -/
def PySchema.append (o : PySchema) (a : Attr) : PySchema :=
  let o' := o.put (o.schema.attrs ++ [a])
  if o.schema.attrs.length < o.cap then o' else { o' with cap := 2 * o.schema.attrs.length + 1, gen := o.gen + 1 }

/-- One statement. -/
def SchemaWorld.step {T : Type} (w : SchemaWorld) : SchemaStep T → Res (SchemaAns T × SchemaWorld)
  | .attrs => .ok (.attrs w.obj.schema.attrs, w)
  | .index n => .ok (.index (w.obj.schema.getIndex n), w)
  | .eq as => .ok (.bool (w.obj.schema.eq ⟨as, []⟩), w)
  | .ref i =>
    if i < w.obj.schema.attrs.length then .ok (.done, { w with refs := w.refs ++ [⟨w.obj.gen, i⟩] })
    else .ok (.indexError, w)
  | .look r =>
    match w.refs[r]? with
    | none => .ok (.indexError, w)
    | some q =>
      if q.gen ≠ w.obj.gen then .ub "use after free"
      else match w.obj.schema.attrs[q.i]? with
        | some a => .ok (.attr a, w)
        | none => .ub "destroyed element"
  | .feature fs n =>
    match newExample w.obj.schema fs with
    | .ok e =>
      match e.findFeature n with
      | .ok t => .ok (.feature t, w)
      | .err e => .err e
      | .ub u => .ub u
    | .err _ => .ok (.valueError, w)
    | .ub u => .ub u
  | .append a => .ok (.done, { w with obj := w.obj.append a })
  | .assign i a =>
    if i < w.obj.schema.attrs.length then .ok (.done, { w with obj := w.obj.put (w.obj.schema.attrs.set i a) })
    else .ok (.indexError, w)
  | .pop =>
    if w.obj.schema.attrs = [] then .ok (.indexError, w)
    else .ok (.done, { w with obj := w.obj.put w.obj.schema.attrs.dropLast })
  | .clear => .ok (.done, { w with obj := w.obj.put [] })

/-- The rest of a program. -/
def SchemaWorld.run {T : Type} (w : SchemaWorld) : List (SchemaStep T) → Res (List (SchemaAns T))
  | [] => .ok []
  | p :: ps =>
    match w.step p with
    | .ok (a, w') =>
      match w'.run ps with
      | .ok as => .ok (a :: as)
      | .err e => .err e
      | .ub u => .ub u
    | .err e => .err e
    | .ub u => .ub u

/-- A program that begins with `schema = Schema(as)`, or is given the schema of a reader. -/
def schemaProgram {T : Type} (as : List Attr) (prog : List (SchemaStep T)) : Res (List (SchemaAns T)) :=
  match makeSchema as with
  | .ok s => SchemaWorld.run ⟨⟨s, as.length, 0⟩, []⟩ prog
  | .err e => .err e
  | .ub u => .ub u

end Mlio
