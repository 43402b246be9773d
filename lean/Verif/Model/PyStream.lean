import Verif.Basic

/-!
# Data stores, streams and readers written in Python

`src/mlio-py/mlio/core/stream.cc` 30-133 (`Py_input_stream`), `src/mlio-py/mlio/core/data_store.cc` 31-65 (`Py_data_store`), `src/mlio-py/mlio/core/data_reader.cc` 58-110 (`Py_data_reader`), and of pybind11 the macro
`PYBIND11_OVERLOAD_PURE(ret_type, cname, fn, ...)`, which looks the method up in Python under the name `#fn`, calls it with the
interpreter lock held, converts the result, and throws if there is no such method or if it raises.
-/

namespace Mlio

/-- An argument of a macro, as it is written: an identifier, or a string in quotes. -/
inductive MacroArg where
  | ident (name : String)
  | quoted (text : String)

/-- `#fn`: the argument as it is written, quotes included. -/
def MacroArg.stringized : MacroArg → String
  | .ident name => name
  | .quoted text => "\"" ++ text ++ "\""

/-- A Python object, as far as its methods are concerned: what a method with this name, if there is one, answers to an argument (a
number, the size of the buffer, or nothing); or it raises an exception. -/
structure PyObject where
  method : String → Option (Nat → Except Unit Nat)

/-- How a call of a virtual function ends: with a value, with an exception, by `std::terminate`, or in an interpreter that was called
without its lock. -/
inductive PyOutcome where
  | value (n : Nat)
  | error
  | terminated
  | noLock
  deriving DecidableEq, Repr

/-- `PYBIND11_OVERLOAD_PURE`. -/
def overloadPure (o : PyObject) (fn : MacroArg) (arg : Nat) : PyOutcome :=
  match o.method fn.stringized with
  | none => .error
  | some f =>
    match f arg with
    | .ok n => .value n
    | .error () => .error

/-- `catch (...) { std::terminate(); }`. -/
def orTerminate : PyOutcome → PyOutcome
  | .error => .terminated
  | r => r

/-- The virtual functions of a stream: `read(destination)` with the size of the destination, `read(size)`, and the others. -/
inductive PyStreamCall where
  | readInto (size : Nat)
  | read (size : Nat)
  | seek (position : Nat)
  | close
  | size
  | position
  | seekable
  | closed
  deriving DecidableEq, Repr

/-- `Py_input_stream`, `stream.cc` 55-133.  In 61 the lock is given away (if the thread has it; otherwise that itself is
forbidden), and then 63 calls the interpreter.  `read(size)` gives an empty slice, 74-77: zero bytes. -/
def pyStreamCall (o : PyObject) : PyStreamCall → PyOutcome
  | .readInto _ => .noLock
  | .read _ => .value 0
  | .seek p => orTerminate (overloadPure o (.quoted "seek") p)
  | .close => orTerminate (overloadPure o (.quoted "close") 0)
  | .size => overloadPure o (.quoted "size") 0
  | .position => overloadPure o (.quoted "position") 0
  | .seekable => orTerminate (overloadPure o (.quoted "seekable") 0)
  | .closed => orTerminate (overloadPure o (.quoted "closed") 0)

/-- `Py_data_store::open_read`, `data_store.cc` 41-45; streams are numbered from 1 on, 0 is `None`, which pybind11 makes a null pointer of. -/
def pyOpenRead (o : PyObject) : PyOutcome := overloadPure o (.ident "open_read") 0

/-- How a reader, or the load of an instance, begins with the stream of a data store: it calls a function of it, without a test for a null pointer
(`utf8_input_stream.cc` 301, `record_readers/detail/chunk_reader.cc` 36, `instance.cc` 41-60).  The stream, or no stream if there is an exception. -/
def pyReaderOpens (o : PyObject) : Res (Option Nat) :=
  match pyOpenRead o with
  | .value 0 => .ub "null pointer"
  | .value n => .ok (some n)
  | _ => .ok none

/-- `Py_data_store::id`, `data_store.cc` 56-65; names are numbered. -/
def pyStoreId (o : PyObject) : PyOutcome := orTerminate (overloadPure o (.ident "id") 0)

/-- The virtual functions of a reader. -/
inductive PyReaderCall where
  | readExample
  | peekExample
  | readSchema
  | reset
  | numBytesRead
  deriving DecidableEq, Repr

/-- `Py_data_reader`, `data_reader.cc` (bindings) 72-110; examples (`None` too) and schemas are numbered.  A property of the class is not a method: its value cannot be called,
which is an exception as if it were missing. -/
def pyReaderCall (o : PyObject) : PyReaderCall → PyOutcome
  | .readExample => overloadPure o (.ident "read_example") 0
  | .peekExample => overloadPure o (.ident "peek_example") 0
  | .readSchema => overloadPure o (.ident "read_schema") 0
  | .reset => orTerminate (overloadPure o (.ident "reset") 0)
  | .numBytesRead => orTerminate (overloadPure o (.ident "num_bytes_read") 0)

end Mlio
