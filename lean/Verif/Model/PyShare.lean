import Verif.Basic

/-!
# Tensors shared with other libraries: who keeps the memory

`src/mlio/integ/dlpack.cc` 126-190, `src/mlio-py/mlio/core/integ.cc` 28-45 (DLPack capsules), `tensor.cc` (bindings) 63-84, 140-145 and `py_device_array.h` 28-75 (buffers of NumPy),
`py_buffer.cc` 31-110, 246-258 (tensors over a Python buffer).

The memory of a tensor is that of the `Tensor` object, which is counted (`Intrusive_ptr`): Python objects, `Py_device_array`s and `dl_pack_context`s have references.  If the
tensor was made with `copy=False` its memory is the buffer of a Python object, which the destructor of the tensor gives back (`py::buffer_info`); that may be done only by a
thread that holds the interpreter lock.

A library that takes a capsule (PyTorch, MXNet) renames it to "used_dltensor" and later, in any thread, calls the deleter; it refuses capsules with another name.
-/

namespace Mlio

/-- A `Tensor`: whether it is over a Python buffer, whether it is dense and of numbers (`dlpack.cc` 60-93, 137-140), the number of references, and whether it was destructed. -/
structure ShTensor where
  buffer : Bool
  plain : Bool
  refs : Nat
  freed : Bool
  deriving DecidableEq, Repr

/-- A `dl_pack_context`, `dlpack.cc` 126-132: its tensor, and whether it was deleted. -/
structure ShContext where
  tensor : Nat
  deleted : Bool
  deriving DecidableEq, Repr

/-- A Python object that has to do with a tensor: an object of the tensor (or one that has a reference to it, such as the example it is in), a buffer of it (through a `Py_device_array`), a capsule, with
its name, an array of another library that was made of a capsule. -/
inductive ShKind where
  | tensor (t : Nat)
  | view (t : Nat)
  | capsule (c : Nat) (used : Bool)
  | array (c : Nat)
  deriving DecidableEq, Repr

/-- An object, and whether it is gone. -/
structure ShObj where
  kind : ShKind
  gone : Bool
  deriving DecidableEq, Repr

structure ShState where
  tensors : List ShTensor
  contexts : List ShContext
  objs : List ShObj
  deriving DecidableEq, Repr

/-- Steps of a program.  Objects are numbered in the order they are made. -/
inductive ShOp where
  /-- A new tensor. -/
  | make (buffer plain : Bool)
  /-- Another object with a reference to the tensor of the object `x`. -/
  | alias (x : Nat)
  /-- `np.asarray(x)` and the like. -/
  | view (x : Nat)
  /-- `as_dlpack(x, version)`. -/
  | export (x version : Nat)
  /-- `from_dlpack(x)`. -/
  | take (x : Nat)
  /-- The last reference to the object `x` goes.  `lock`: the thread holds the interpreter lock (for arrays of other libraries it need not).  `pending`: while an exception is on its way. -/
  | drop (x : Nat) (lock pending : Bool)
  /-- Access to the elements of the view or array `x`. -/
  | read (x : Nat)
  deriving DecidableEq, Repr

/-- What a step ends with: nothing, an exception, the elements of a tensor, or nothing but the pending exception is forgotten. -/
inductive ShOut where
  | done
  | refused
  | elements (t : Nat)
  | forgotten
  deriving DecidableEq, Repr

/-- `Intrusive_ptr::~Intrusive_ptr`, and the destructor of the tensor with its last reference. -/
def ShState.release (s : ShState) (t : Nat) (lock : Bool) : Res ShState :=
  match s.tensors[t]? with
  | none => .ub "no such tensor"
  | some x =>
    if x.refs = 0 then .ub "release of a destructed tensor"
    else if x.refs = 1 then
      if x.buffer && !lock then .ub "PyBuffer_Release without the interpreter lock"
      else .ok { s with tensors := s.tensors.set t { x with refs := 0, freed := true } }
    else .ok { s with tensors := s.tensors.set t { x with refs := x.refs - 1 } }

/-- Another reference. -/
def ShState.retain (s : ShState) (t : Nat) : Res ShState :=
  match s.tensors[t]? with
  | none => .ub "no such tensor"
  | some x => if x.freed then .ub "reference to a destructed tensor"
    else .ok { s with tensors := s.tensors.set t { x with refs := x.refs + 1 } }

/-- The deleter, `dlpack.cc` 163-167, and the destructor of the context. -/
def ShState.delete (s : ShState) (c : Nat) (lock : Bool) : Res ShState :=
  match s.contexts[c]? with
  | none => .ub "no such context"
  | some x => if x.deleted then .ub "context deleted twice"
    else ShState.release { s with contexts := s.contexts.set c { x with deleted := true } } x.tensor lock

/-- The object with this number, if it exists. -/
def ShState.get (s : ShState) (x : Nat) : Option ShKind :=
  match s.objs[x]? with
  | some ⟨k, false⟩ => some k
  | _ => none

/-- A new object. -/
def ShState.push (s : ShState) (k : ShKind) : ShState := { s with objs := s.objs ++ [⟨k, false⟩] }

/-- A step. -/
def ShState.step (s : ShState) : ShOp → Res (ShOut × ShState)
  | .make buffer plain =>
    .ok (.done, ShState.push { s with tensors := s.tensors ++ [⟨buffer, plain, 1, false⟩] } (.tensor s.tensors.length))
  | .alias x => match s.get x with
    | some (.tensor t) => (s.retain t).bind fun s1 => .ok (.done, s1.push (.tensor t))
    | _ => .ok (.refused, s)
  -- `tensor.cc` 140-144
  | .view x => match s.get x with
    | some (.tensor t) => (s.retain t).bind fun s1 => .ok (.done, s1.push (.view t))
    | _ => .ok (.refused, s)
  -- `integ.cc` 28-30, `dlpack.cc` 147-190; the header with `DLPACK_VERSION` is not in the repository; here it is 16, the default of `dlpack.py` 17
  | .export x version => match s.get x with
    | some (.tensor t) => match s.tensors[t]? with
      | none => .ub "no such tensor"
      | some y =>
        if version = 16 ∧ y.plain = true then
          (s.retain t).bind fun s1 => .ok (.done, ShState.push { s1 with contexts := s1.contexts ++ [⟨t, false⟩] } (.capsule s1.contexts.length false))
        else .ok (.refused, s)
    | _ => .ok (.refused, s)
  | .take x => match s.get x with
    | some (.capsule c false) => .ok (.done, ShState.push { s with objs := s.objs.set x ⟨.capsule c true, false⟩ } (.array c))
    | _ => .ok (.refused, s)
  | .drop x lock pending => match s.get x with
    | none => .ok (.refused, s)
    | some k =>
      let s1 := { s with objs := s.objs.set x ⟨k, true⟩ }
      match k with
      | .tensor t => (s1.release t true).bind fun s2 => .ok (.done, s2)
      | .view t => (s1.release t true).bind fun s2 => .ok (.done, s2)
      -- The destructor of the capsule, `integ.cc` 32-44.  `PyErr_Clear` clears whatever exception there is.
      | .capsule _ true => .ok (if pending then .forgotten else .done, s1)
      | .capsule c false => (s1.delete c true).bind fun s2 => .ok (.done, s2)
      | .array c => (s1.delete c lock).bind fun s2 => .ok (.done, s2)
  | .read x => match s.get x with
    | some (.view t) => match s.tensors[t]? with
      | some y => if y.freed then .ub "use after free" else .ok (.elements t, s)
      | none => .ub "no such tensor"
    | some (.array c) => match s.contexts[c]? with
      | some z => if z.deleted then .ub "use of a deleted context" else match s.tensors[z.tensor]? with
        | some y => if y.freed then .ub "use after free" else .ok (.elements z.tensor, s)
        | none => .ub "no such tensor"
      | none => .ub "no such context"
    | _ => .ok (.refused, s)

/-- A program. -/
def ShState.run (s : ShState) : List ShOp → Res (List ShOut × ShState)
  | [] => .ok ([], s)
  | a :: as => (s.step a).bind fun r => (r.2.run as).bind fun q => .ok (r.1 :: q.1, q.2)

/-- A program at its start. -/
def ShState.start : ShState := ⟨[], [], []⟩

end Mlio
