import Verif.Model.Poke

/-!
# Who keeps the buffer of a Python object

`InMemoryStore(buf)` wraps the buffer of a Python object in a `Py_memory_block` (`src/mlio-py/mlio/core/data_store.cc` 67-70), whose destructor gives the buffer
back with `PyBuffer_Release` (`py_memory_block.cc` 20-23).  Like all of Python's C interface that changes the count of an object, this may be called only by a
thread that holds the interpreter lock (the GIL).  The destructor runs in whatever thread lets the last reference to the block go.

Here: one such block, without compression, and the Python objects of ml-io that refer to it.  Reference counts are exact (C57), so that the block is destructed when
the last object that refers to it lets it go.

Simplifications: calls happen one after the other (the lock is given away during some of them, but a call that runs at the same time can only keep the block for
longer); of the references that the threads of a data reader hold only the number is kept.
-/

namespace Mlio

/-- A record reader over the block.  `own` is the state of the reader, `cur` tells whether `chunk_` refers to the block
(`stream_record_reader.h` 75-76) and `peeked` whether `peeked_record_` does (`record_reader_base.h`). -/
structure HoldReader where
  own : OwnReader
  cur : Bool
  peeked : Bool
  deriving DecidableEq, Repr

/-- The Python objects that may refer to the block. -/
inductive HoldObj where
  /-- `InMemoryStore`, `in_memory_store.h`: the slice `chunk_` -/
  | store
  /-- `InputStream` over the block, by number: `Memory_input_stream::source_` -/
  | stream (j : Nat)
  /-- `MemorySlice` from `InputStream.read(size)` -/
  | slice
  /-- `Record`, a slice of the block -/
  | record
  /-- `ParquetRecordReader` over an `In_memory_chunk_reader` -/
  | reader (r : HoldReader)
  /-- `ParquetRecordReader` over a `Default_chunk_reader`, which refers to the stream and copies from it -/
  | copying (j : Nat)
  /-- a data reader with the store in its dataset, and how many references its threads hold -/
  | dataReader (background : Nat)
  deriving DecidableEq, Repr

/-- A `Memory_input_stream`, `memory_input_stream.h`: whether it is open, and its position (which counts only for a new record reader). -/
structure HoldStream where
  isOpen : Bool
  pos : Nat
  deriving DecidableEq, Repr

/-- The contents of the buffer, the streams over it, the objects of the program (`none` when deleted), and for each time that the block was destructed whether the
thread that did it held the lock. -/
structure HoldState where
  mem : Bytes
  streams : List HoldStream
  objs : List (Option HoldObj)
  released : List Bool
  deriving DecidableEq, Repr

/-- `InMemoryStore(buf)`, `data_store.cc` 67-70. -/
def HoldState.init (mem : Bytes) : HoldState := ⟨mem, [], [some .store], []⟩

/-- `Memory_input_stream::close` sets `source_` to nothing, `memory_input_stream.cc` 68-73. -/
def HoldState.streamHolds (s : HoldState) (j : Nat) : Bool :=
  match s.streams[j]? with
  | some t => t.isOpen
  | none => false

/-- Does the reader refer to the block: through the chunk not yet handed out, the current chunk or the peeked record. -/
def HoldReader.holds (r : HoldReader) : Bool := r.own.pending || r.cur || r.peeked

/-- Does the object refer to the block. -/
def HoldState.holds (s : HoldState) : HoldObj → Bool
  | .store => true
  | .stream j => s.streamHolds j
  | .slice => true
  | .record => true
  | .reader r => r.holds
  | .copying j => s.streamHolds j
  | .dataReader _ => true

/-- Does any object refer to the block. -/
def HoldState.alive (s : HoldState) : Bool := s.objs.any fun o => match o with
  | some o => s.holds o
  | none => false

/-- `Stream_record_reader::read_record_core`, `stream_record_reader.cc` 45-62, with what becomes of `chunk_`: when a record has been found or decoding has thrown it refers to the
block; at the end it is assigned the empty slice that `read_chunk` returns (55). -/
def HoldReader.readCore (dec : Bytes → Bool → Dec Record) (r : HoldReader) : Res (Option Record) × HoldReader :=
  match r.own.read dec (fun _ _ => 0) with
  | (.ok (some x), z) => (.ok (some x.1), { r with own := z, cur := true })
  | (.ok none, z) => (.ok none, { r with own := z, cur := false })
  | (.err e, z) => (.err e, { r with own := z, cur := true })
  | (.ub w, z) => (.ub w, { r with own := z, cur := true })

/-- `Record_reader_base::read_record`, `record_reader_base.cc` 23-29: the outcome says only whether there is a record. -/
def HoldReader.read (dec : Bytes → Bool → Dec Record) (r : HoldReader) : Bool × HoldReader :=
  if r.peeked then (true, { r with peeked := false })
  else
    match r.readCore dec with
    | (.ok (some _), r') => (true, r')
    | (_, r') => (false, r')

/-- `Record_reader_base::peek_record`, `record_reader_base.cc` 31-37. -/
def HoldReader.peek (dec : Bytes → Bool → Dec Record) (r : HoldReader) : Bool × HoldReader :=
  if r.peeked then (true, r)
  else
    match r.readCore dec with
    | (.ok (some _), r') => (true, { r' with peeked := true })
    | (_, r') => (false, r')

/-- What a program does; objects are named by their place in `objs`, new ones are put at the end. -/
inductive HoldAct where
  /-- the object is deallocated by Python -/
  | del (i : Nat)
  /-- `DataStore.open_read` -/
  | openRead (i : Nat)
  /-- `InputStream.close` or leaving a `with` block -/
  | close (i : Nat)
  /-- `InputStream.seek` and `InputStream.read(buf)`: the stream is then at `pos` -/
  | move (i pos : Nat)
  /-- `InputStream.read(size)` -/
  | readSlice (i size : Nat)
  /-- `ParquetRecordReader(stream)` -/
  | newReader (i : Nat)
  /-- `read_record`, or `next` of an iterator -/
  | readRecord (i : Nat)
  /-- `peek_record` -/
  | peekRecord (i : Nat)
  /-- a data reader over the store is made -/
  | newDataReader (i : Nat)
  /-- the threads of a data reader, or `read_example`, take or let go references: there are `n` now -/
  | background (i n : Nat)
  deriving DecidableEq, Repr

/-- Is the lock held while this is done: `open_read` (`data_store.cc` 106-109), `read_record`, `peek_record` (`record_reader.cc` 36-44, 86-88) and the calls of data readers
(`data_reader.cc` 595-610) give it away; deallocation, `close` and constructors do not (`stream.cc` 144-181, `record_reader.cc` 93-97).  `InputStream.read(buf)` gives it away
(`stream.cc` 135-142). -/
def HoldAct.locked : HoldAct → Bool
  | .del _ | .close _ | .readSlice _ _ | .newReader _ | .newDataReader _ => true
  | .openRead _ | .move _ _ | .readRecord _ | .peekRecord _ | .background _ _ => false

/-- A new object. -/
def HoldState.push (s : HoldState) (o : HoldObj) : HoldState := { s with objs := s.objs ++ [some o] }

/-- Another state of an object. -/
def HoldState.setObj (s : HoldState) (i : Nat) (o : Option HoldObj) : HoldState := { s with objs := s.objs.set i o }

/-- Another state of a stream. -/
def HoldState.setStream (s : HoldState) (j : Nat) (t : HoldStream) : HoldState := { s with streams := s.streams.set j t }

/-- The object at place `i`. -/
def HoldState.obj (s : HoldState) (i : Nat) : Option HoldObj := (s.objs[i]?).join

/-- The result of a call as a new object, if there is one. -/
def HoldState.result (s : HoldState) (i : Nat) (o : Bool × HoldReader) : HoldState :=
  let s' := s.setObj i (some (.reader o.2))
  if o.1 then s'.push .record else s'

/-- `make_chunk_reader`, `detail/chunk_reader.cc` 30-47, in the constructor of the record reader: if the stream gives all its contents in one slice, the reader keeps this slice and not the stream;
otherwise the stream is set to its start and kept.  The constructor throws if the stream is closed. -/
def HoldState.newReader (s : HoldState) (j : Nat) : HoldState :=
  match s.streams[j]? with
  | none => s
  | some t =>
    if !t.isOpen then s
    else if t.pos = 0 ∨ s.mem.length = 0 then
      (s.setStream j { t with pos := s.mem.length }).push (.reader ⟨OwnReader.open s.mem, false, false⟩)
    else (s.setStream j { t with pos := 0 }).push (.copying j)

/-- What an action does to the objects; one that is not possible does nothing. -/
def HoldState.act (dec : Bytes → Bool → Dec Record) (s : HoldState) : HoldAct → HoldState
  | .del i =>
    match s.obj i with
    | some (.dataReader (_ + 1)) => s   -- the destructor first waits for the threads (`parallel_data_reader.cc` 74-90)
    | _ => s.setObj i none
  | .openRead i =>
    match s.obj i with
    | some .store => { s.push (.stream s.streams.length) with streams := s.streams ++ [⟨true, 0⟩] }
    | _ => s
  | .close i =>
    match s.obj i with
    | some (.stream j) =>
      match s.streams[j]? with
      | some t => s.setStream j { t with isOpen := false }
      | none => s
    | _ => s
  | .move i pos =>
    match s.obj i with
    | some (.stream j) =>
      match s.streams[j]? with
      | some t => if t.isOpen then s.setStream j { t with pos := min pos s.mem.length } else s
      | none => s
    | _ => s
  | .readSlice i size =>
    match s.obj i with
    | some (.stream j) =>
      match s.streams[j]? with
      | some t =>
        if t.isOpen ∧ size ≠ 0 then (s.setStream j { t with pos := min (t.pos + size) s.mem.length }).push .slice else s
      | none => s
    | _ => s
  | .newReader i =>
    match s.obj i with
    | some (.stream j) => s.newReader j
    | _ => s
  | .readRecord i =>
    match s.obj i with
    | some (.reader r) => s.result i (r.read dec)
    | _ => s
  | .peekRecord i =>
    match s.obj i with
    | some (.reader r) => s.result i (r.peek dec)
    | _ => s
  | .newDataReader i =>
    match s.obj i with
    | some .store => s.push (.dataReader 0)
    | _ => s
  | .background i n =>
    match s.obj i with
    | some (.dataReader _) => s.setObj i (some (.dataReader n))
    | _ => s

/-- An action; if after it nothing refers to the block any more, it has been destructed by the thread of the action. -/
def HoldState.step (dec : Bytes → Bool → Dec Record) (s : HoldState) (a : HoldAct) : HoldState :=
  let s' := s.act dec a
  if s.alive && !s'.alive then { s' with released := s'.released ++ [a.locked] } else s'

/-- A program. -/
def HoldState.run (dec : Bytes → Bool → Dec Record) : HoldState → List HoldAct → HoldState
  | s, [] => s
  | s, a :: as => HoldState.run dec (s.step dec a) as

end Mlio
