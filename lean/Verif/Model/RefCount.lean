import Verif.Basic

/-!
# Intrusive reference counting

`include/mlio/intrusive_ptr.h`, `include/mlio/intrusive_ref_counter.h`.
-/

namespace Mlio

/-- A place in memory where an `Intrusive_ptr` lives: a variable, or a member of an object. -/
inductive RcLoc where
  | var (i : Nat)
  | fld (o j : Nat)
  deriving DecidableEq, Repr

/-- A reference counted object (`Intrusive_ref_counter`, `intrusive_ref_counter.h` 26-72): whether it has been deleted,
`ref_count_`, and its members that are `Intrusive_ptr`s.  The counter does not overflow. -/
structure RcObj where
  alive : Bool
  count : Nat
  fields : List (Option Nat)
  deriving DecidableEq, Repr

/-- What an operation consists of.  Other threads do not look at a handle that is being written, so that storing a
pointer and counting it are one step; counting down and the work of destructors are steps of their own. -/
inductive RcMicro where
  /-- `decrement_ref_count` of a handle (183-188), which is then overwritten -/
  | drop (l : RcLoc)
  /-- `decrement_ref_count` of a handle in an object that is being destructed -/
  | dec (o : Nat)
  /-- `ptr_ = other_ptr; increment_ref_count()` (164-166, 44-47) -/
  | acquire (l : RcLoc) (o : Nat)
  /-- `ptr_ = other_ptr` and `other.ptr_ = nullptr` (173, 97-99, 118-120) -/
  | transfer (l src : RcLoc) (p : Option Nat)
  deriving DecidableEq, Repr

/-- A thread: what is left to do of its operation, and the handles that the operation reads and writes. -/
structure RcThread where
  todo : List RcMicro
  reads : List RcLoc
  writes : List RcLoc
  deriving DecidableEq, Repr

/-- The memory and the threads. -/
structure RcState where
  vars : List (Option Nat)
  objs : List RcObj
  threads : List RcThread
  deriving DecidableEq, Repr

/-- The pointer in a handle. -/
def RcState.get (s : RcState) : RcLoc → Option Nat
  | .var i => (s.vars[i]?).join
  | .fld o j => (s.objs[o]?).bind fun ob => (ob.fields[j]?).join

/-- The handle is there: its object has not been deleted. -/
def RcState.valid (s : RcState) : RcLoc → Bool
  | .var i => i < s.vars.length
  | .fld o j => match s.objs[o]? with
    | some ob => ob.alive && j < ob.fields.length
    | none => false

/-- Storing a pointer. -/
def RcState.put (s : RcState) (l : RcLoc) (p : Option Nat) : RcState :=
  match l with
  | .var i => { s with vars := s.vars.set i p }
  | .fld o j => match s.objs[o]? with
    | some ob => { s with objs := s.objs.set o { ob with fields := ob.fields.set j p } }
    | none => s

/-- What thread `t` has left to do. -/
def RcState.setTodo (s : RcState) (t : Nat) (todo : List RcMicro) : RcState :=
  match s.threads[t]? with
  | some th => { s with threads := s.threads.set t { th with todo := todo } }
  | none => s

/-- The destructor of an object drops its handles. -/
def fieldDrops (fields : List (Option Nat)) : List RcMicro := fields.filterMap fun p => p.map .dec

/-- `intrusive_ptr_dec_ref`, `intrusive_ref_counter.h` 59-65: if the counter was one, the object is deleted. -/
def RcState.decObj (s : RcState) (t : Nat) (rest : List RcMicro) (o : Nat) : Res RcState :=
  match s.objs[o]? with
  | some ob =>
    if !ob.alive then .ub "use after free"
    else if ob.count = 1 then
      .ok (({ s with objs := s.objs.set o { ob with alive := false, count := 0 } }).setTodo t (fieldDrops ob.fields ++ rest))
    else .ok (({ s with objs := s.objs.set o { ob with count := ob.count - 1 } }).setTodo t rest)
  | none => .ub "use after free"

/-- `intrusive_ptr_inc_ref`, `intrusive_ref_counter.h` 53-57. -/
def RcState.incObj (s : RcState) (o : Nat) : Res RcState :=
  match s.objs[o]? with
  | some ob => if !ob.alive then .ub "use after free"
    else .ok { s with objs := s.objs.set o { ob with count := ob.count + 1 } }
  | none => .ub "use after free"

/-- One step of thread `t`. -/
def RcState.exec (s : RcState) (t : Nat) (rest : List RcMicro) : RcMicro → Res RcState
  | .dec o => s.decObj t rest o
  | .drop l =>
    if !s.valid l then .ub "use after free"
    else match s.get l with
      | none => .ok (s.setTodo t rest)
      | some o => (s.put l none).decObj t rest o
  | .acquire l o =>
    if !s.valid l then .ub "use after free"
    else match (s.put l (some o)).incObj o with
      | .ok s' => .ok (s'.setTodo t rest)
      | .err e => .err e
      | .ub w => .ub w
  | .transfer l src p =>
    if !s.valid l || !s.valid src then .ub "use after free"
    else .ok (((s.put l p).put src none).setTodo t rest)

/-- A handle as a program names it: a variable, or a member of the object a variable points to. -/
inductive RcPlace where
  | var (i : Nat)
  | field (v j : Nat)
  deriving DecidableEq, Repr

/-- Operations on handles: `make_intrusive` (and `wrap_intrusive` of a new object, 243-255) into a variable, for an object
with `k` handles; copy construction and assignment (44-47, 66-74); move construction and assignment (87-101);
destruction and assignment of `nullptr` (58-64, 127-130). Constructing is assigning to a variable that is null. -/
inductive RcOp where
  | make (v k : Nat)
  | copy (dst src : RcPlace)
  | move (dst src : RcPlace)
  | drop (dst : RcPlace)
  deriving DecidableEq, Repr

/-- Where the handle lives. -/
def RcState.resolve (s : RcState) : RcPlace → Option RcLoc
  | .var i => if s.valid (.var i) then some (.var i) else none
  | .field v j => match s.get (.var v) with
    | some o => if s.valid (.fld o j) then some (.fld o j) else none
    | none => none

/-- The variable through which it is reached. -/
def RcPlace.guard : RcPlace → List RcLoc
  | .var _ => []
  | .field v _ => [.var v]

/-- The steps of an operation, with the handles it reads and writes: `copy_assign` (156-167) does nothing if the pointers
are equal; `move_assign` (169-174), also of a handle to itself, drops the old pointer first. -/
def RcState.compile (s : RcState) : RcOp → Option RcThread
  | .make _ _ => none
  | .drop d => match s.resolve d with
    | some l => some ⟨[.drop l], d.guard, [l]⟩
    | none => none
  | .copy d c => match s.resolve d, s.resolve c with
    | some l, some src =>
      if s.get l = s.get src then some ⟨[], [], []⟩
      else match s.get src with
        | none => some ⟨[.drop l], d.guard ++ c.guard ++ [src], [l]⟩
        | some q => some ⟨[.drop l, .acquire l q], d.guard ++ c.guard ++ [src], [l]⟩
    | _, _ => none
  | .move d c => match s.resolve d, s.resolve c with
    | some l, some src =>
      if l = src then some ⟨[.drop l], d.guard, [l]⟩
      else some ⟨[.drop l, .transfer l src (s.get src)], d.guard ++ c.guard, [l, src]⟩
    | _, _ => none

/-- What happens next: thread `t` starts an operation, or does a step. -/
inductive RcEvent where
  | start (t : Nat) (o : RcOp)
  | step (t : Nat)
  deriving DecidableEq, Repr

/-- An event; one that is not possible changes nothing. -/
def RcState.event (s : RcState) : RcEvent → Res RcState
  | .start t (.make v k) =>
    match s.threads[t]? with
    | some th =>
      if th.todo = [] ∧ s.valid (.var v) ∧ s.get (.var v) = none then
        .ok { s with
          objs := s.objs ++ [⟨true, 1, List.replicate k none⟩]
          vars := s.vars.set v (some s.objs.length) }
      else .ok s
    | none => .ok s
  | .start t o =>
    match s.threads[t]?, s.compile o with
    | some th, some th' => if th.todo = [] then .ok { s with threads := s.threads.set t th' } else .ok s
    | _, _ => .ok s
  | .step t =>
    match s.threads[t]? with
    | some th => match th.todo with
      | [] => .ok s
      | m :: rest => s.exec t rest m
    | none => .ok s

/-- A schedule. -/
def RcState.run : RcState → List RcEvent → Res RcState
  | s, [] => .ok s
  | s, e :: es =>
    match s.event e with
    | .ok s' => s'.run es
    | .err e => .err e
    | .ub w => .ub w

end Mlio
