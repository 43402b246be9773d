import Verif.Model.Pipeline

/-!
# The interface of data readers

`src/mlio/data_reader_base.cc` (reading and peeking of examples) and `num_bytes_read` of
`src/mlio/parallel_data_reader.cc`, on top of `Verif/Model/Pipeline.lean`.

Simplifications: as there; the number of bytes is a natural number instead of one of 64 bits.
-/

namespace Mlio

/-- The calls of the user that return an example. -/
inductive ReadCall where
  | read | peek
  deriving DecidableEq, Repr

/-- A `Parallel_data_reader`: the state of the pipeline, `num_bytes_read_` (`parallel_data_reader.h` 118) and
`peeked_example_` (`data_reader_base.h` 58); the call that is waiting for an example, and what the calls of this epoch have
returned (for specifications only). -/
structure DState {α : Type} (m : Machine (Batch α)) (ε : Type) where
  p : PState m ε
  bytes : Nat := 0
  peeked : Option ε := none
  call : Option ReadCall := none
  hist : List (ReadCall × Res (Option ε)) := []

/-- A new reader. -/
def DState.init {α ε : Type} (m : Machine (Batch α)) : DState m ε := { p := PState.init m }

/-- What can happen next: a move of the pipeline that is not a call, or a call of the user. -/
inductive DAct where
  | sys (a : PAct)
  | call (c : ReadCall)
  | reset
  deriving DecidableEq, Repr

section
variable {α ε : Type} {m : Machine (Batch α)}

/-- `Instance_batch::size_bytes`, `instance_batch.cc` 21-30; `size` is the size of the bits of an instance. -/
def Batch.sizeBytes (size : α → Nat) (b : Batch α) : Nat := (b.instances.map size).sum

/-- The bytes that a decode task adds to `num_bytes_read_`, `parallel_data_reader.cc` 230-234. -/
def bytesAdded (size : α → Nat) (dec : Batch α → Except Err (Option ε)) (s : PState m ε) : PAct → Nat
  | .decode i =>
    match s.decoding[i]? with
    | some b =>
      match dec b with
      | .ok (some _) => b.sizeBytes size
      | _ => 0
    | none => 0
  | _ => 0

/-- `read_example_core` goes on to `p`; if it has returned, so do `read_example` and `peek_example`,
`data_reader_base.cc` 25-39. -/
def DState.settle (d : DState m ε) (p : PState m ε) : DState m ε :=
  if p.consumer = .idle then
    match d.call, p.out.getLast? with
    | some .read, some o => { d with p := p, call := none, hist := d.hist ++ [(.read, o)] }
    | some .peek, some o =>
      { d with
        p := p, call := none, hist := d.hist ++ [(.peek, o)],
        peeked := match o with | .ok (some e) => some e | _ => none }
    | _, _ => { d with p := p }
  else { d with p := p }

/-- The end of `reset`, `parallel_data_reader.cc` 314-316, `data_reader_base.cc` 41-44. -/
def DState.afterReset (p : PState m ε) : DState m ε := { p := p }

/-- `read_example` and `peek_example`, `data_reader_base.cc` 25-39. -/
def dCall (c : ReadCall) (d : DState m ε) : Option (DState m ε) :=
  if d.p.consumer = .idle then
    match d.peeked, c with
    | some e, .read => some { d with peeked := none, hist := d.hist ++ [(.read, .ok (some e))] }
    | some e, .peek => some { d with hist := d.hist ++ [(.peek, .ok (some e))] }
    | none, c => (pCallRead d.p).map fun p => { d with call := some c }.settle p
  else none

/-- A move. -/
def dstep (P Q : Nat) (size : α → Nat) (dec : Batch α → Except Err (Option ε)) (a : DAct) (d : DState m ε) :
    Option (DState m ε) :=
  match a with
  | .call c => dCall c d
  | .reset =>
    (pCallReset d.p).map fun p =>
      if p.consumer = .joining then { d with p := p } else .afterReset p
  | .sys a =>
    if a.isCall then none
    else
      (pstep P Q dec a d.p).map fun p =>
        if a = .cJoin then .afterReset p
        else { d with bytes := d.bytes + bytesAdded size dec d.p a }.settle p

/-- An execution. -/
def drun (P Q : Nat) (size : α → Nat) (dec : Batch α → Except Err (Option ε)) :
    List DAct → DState m ε → Option (DState m ε)
  | [], d => some d
  | a :: as, d => (dstep P Q size dec a d).bind (drun P Q size dec as)

end

end Mlio
