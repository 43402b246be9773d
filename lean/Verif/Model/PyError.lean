import Verif.Model.Tokenizer

/-!
# Errors in Python

`src/mlio-py/mlio/core/error.cc`: how a C++ exception, with the exceptions nested in it, becomes a Python exception with its chain of causes.  The
places of the library that nest exceptions: `core_instance_reader.cc` 70-102, `instance.cc` 127-148, `csv_reader.cc` 147-151 and 220-224.  The
messages about bad cells: `csv_reader.cc` 648-688 and 698-717.

What is assumed of pybind11: translators are tried one after the other, the one of the module first, an exception that escapes from one is handed to the
next, and the last one is pybind11's own (`cpp_function::dispatcher`, `translate_exception`); making a `str` of a C string decodes
UTF-8 strictly and throws `UnicodeDecodeError`.  TBB hands exceptions over as they are.
-/

namespace Mlio

/-- The classes of exceptions: those of the library (`include/mlio/mlio_error.h`, `data_reader_error.h`, `record_readers/record_error.h`,
`streams/stream_error.h`, `not_supported_error.h`), `std::system_error`, and others. -/
inductive ErrClass where
  | mlio | stream | inflate | record | corruptRecord | corruptHeader | corruptFooter | recordTooLarge
  | dataReader | schema | invalidInstance | notSupported
  | system
  | invalidArgument | outOfRange | badAlloc | lengthError | domainError | rangeError | otherStd
  deriving DecidableEq, Repr

/-- The base classes, as declared in the headers (only those that matter to `catch` clauses). -/
def ErrClass.base : ErrClass → Option ErrClass
  | .stream => some .mlio
  | .inflate => some .stream
  | .record => some .mlio
  | .corruptRecord => some .record
  | .corruptHeader => some .corruptRecord
  | .corruptFooter => some .corruptRecord
  | .recordTooLarge => some .record
  | .dataReader => some .mlio
  | .schema => some .dataReader
  | .invalidInstance => some .dataReader
  | .notSupported => some .mlio
  | _ => none

/-- `catch (const d &)` catches an exception of class `c`.  (No chain of base classes has more than four members.) -/
def ErrClass.isA (c d : ErrClass) : Bool :=
  c == d || c.base == some d || (c.base.bind ErrClass.base) == some d || ((c.base.bind ErrClass.base).bind ErrClass.base) == some d

/-- A C++ exception: class, `what()`, `code().value()`, and the exception nested in it. -/
inductive Exc where
  | mk (cls : ErrClass) (what : Bytes) (code : Int) (nested : Option Exc)

namespace Exc
def cls : Exc → ErrClass | mk c _ _ _ => c
def what : Exc → Bytes | mk _ w _ _ => w
def nested : Exc → Option Exc | mk _ _ _ n => n
end Exc

/-- The class of a Python exception: its name. -/
abbrev PyType := String

/-- A Python exception: class, message, `errno`, and `__cause__`. -/
inductive PyExc where
  | mk (type : PyType) (msg : String) (errno : Option Int) (cause : Option PyExc)

namespace PyExc
def type : PyExc → PyType | mk t _ _ _ => t
def msg : PyExc → String | mk _ m _ _ => m
def cause : PyExc → Option PyExc | mk _ _ _ c => c
end PyExc

/-- `register_exceptions`, `error.cc` 134-162: the base class of each class of the module. -/
def pyBase : PyType → Option PyType
  | "MLIOError" => some "RuntimeError"
  | "StreamError" => some "MLIOError"
  | "InflateError" => some "StreamError"
  | "RecordError" => some "MLIOError"
  | "CorruptRecordError" => some "RecordError"
  | "CorruptHeaderError" => some "CorruptRecordError"
  | "CorruptFooterError" => some "CorruptRecordError"
  | "RecordTooLargeError" => some "RecordError"
  | "DataReaderError" => some "MLIOError"
  | "SchemaError" => some "DataReaderError"
  | "InvalidInstanceError" => some "DataReaderError"
  | "NotSupportedError" => some "MLIOError"
  | _ => none

/-- `except d` catches an exception of class `c`. -/
def pyIsA (c d : PyType) : Bool :=
  c == d || pyBase c == some d || ((pyBase c).bind pyBase) == some d || (((pyBase c).bind pyBase).bind pyBase) == some d

/-- The `catch` clauses of the translator, `error.cc` 172-213, and of `throw_nested_error`, 62-104, in their order. -/
def catchClauses : List (ErrClass × PyType) :=
  [(.notSupported, "NotSupportedError"), (.invalidInstance, "InvalidInstanceError"), (.schema, "SchemaError"),
    (.dataReader, "DataReaderError"), (.recordTooLarge, "RecordTooLargeError"), (.corruptFooter, "CorruptFooterError"),
    (.corruptHeader, "CorruptHeaderError"), (.corruptRecord, "CorruptRecordError"), (.record, "RecordError"),
    (.inflate, "InflateError"), (.stream, "StreamError"), (.mlio, "MLIOError"), (.system, "OSError")]

/-- What leaves the translator of the module if it does not set an error. -/
inductive Escape where
  | cpp (e : Exc)
  | unicodeDecodeError

/-- A `str` of a C string. -/
def pyStr (b : Bytes) : Option String := String.fromUTF8? ⟨b.toArray⟩

/-- `set_error` and `set_system_error` (108-126), with `set_nested_error`, `set_nested_system_error` and `throw_nested_error`
(41-104): the exception object is made first, then the nested exception is thrown and translated, and becomes the cause. -/
def translate : Exc → Except Escape PyExc
  | .mk c w k n =>
    match catchClauses.find? (fun q => c.isA q.1) with
    | none => .error (.cpp (.mk c w k n))
    | some (q, t) =>
      match pyStr w with
      | none => .error .unicodeDecodeError
      | some s =>
        let no := if q = .system then some k else none
        match n with
        | none => .ok (.mk t s no none)
        | some e =>
          match translate e with
          | .error x => .error x
          | .ok p => .ok (.mk t s no (some p))

/-- pybind11's own translator. -/
def translateDefault : Escape → PyExc
  | .unicodeDecodeError => .mk "UnicodeDecodeError" "" none none
  | .cpp (.mk c w _ _) =>
    let t := match c with
      | .badAlloc => "MemoryError"
      | .domainError | .invalidArgument | .lengthError | .rangeError => "ValueError"
      | .outOfRange => "IndexError"
      | _ => "RuntimeError"
    match pyStr w with
    | some s => .mk t s none none
    -- `PyErr_SetString` fails to decode the message
    | none => .mk "UnicodeDecodeError" "" none none

/-- What a call from Python raises if the library throws. -/
def pyRaise (e : Exc) : PyExc :=
  match translate e with
  | .ok p => p
  | .error x => translateDefault x

/-- ASCII text of messages. -/
def txt (s : String) : Bytes := s.toByteArray.data.toList

/-- A number in a message.  (The format `n` is that of the locale "C".) -/
def num (n : Nat) : Bytes := txt (toString n)

/-- `Core_instance_reader::handle_errors`, `core_instance_reader.cc` 70-102; `id` is the id of the data store, `idx` is `record_idx_`. -/
def coreHandleErrors (id : Bytes) (idx : Nat) (e : Exc) : Exc :=
  if e.cls.isA .recordTooLarge then
    .mk .dataReader (txt "The record #" ++ num idx ++ txt " in the data store '" ++ id ++ txt "' is too large. See nested exception for details.") 0 (some e)
  else if e.cls.isA .corruptRecord then
    .mk .dataReader (txt "The record #" ++ num idx ++ txt " in the data store '" ++ id ++ txt "' is corrupt. See nested exception for details.") 0 (some e)
  else if e.cls.isA .stream then
    .mk .dataReader (txt "The data store '" ++ id ++ txt "' contains corrupt data. See nested exception for details.") 0 (some e)
  else if e.cls.isA .notSupported then
    .mk .dataReader (txt "The data store '" ++ id ++ txt "' cannot be read. See nested exception for details.") 0 (some e)
  else if e.cls.isA .system then
    .mk .dataReader (txt "A system error occurred while trying to read from the data store '" ++ id ++ txt "'. See nested exception for details.") 0 (some e)
  else e

/-- `Instance::handle_errors`, `instance.cc` 127-147. -/
def instanceHandleErrors (id : Bytes) (e : Exc) : Exc :=
  if e.cls.isA .stream then
    .mk .dataReader (txt "The data store '" ++ id ++ txt "' contains corrupt data. See nested exception for details.") 0 (some e)
  else if e.cls.isA .notSupported then
    .mk .dataReader (txt "The data store '" ++ id ++ txt "' cannot be read. See nested exception for details.") 0 (some e)
  else if e.cls.isA .system then
    .mk .dataReader (txt "A system error occurred while trying to read from the data store '" ++ id ++ txt "'. See nested exception for details.") 0 (some e)
  else e

/-- The `catch` clauses of `Csv_reader` for the header (`csv_reader.cc` 147-151) and for the first row (220-224). -/
def csvSchemaErrors (header : Bool) (id : Bytes) (e : Exc) : Exc :=
  if e.cls.isA .corruptRecord then
    if header then
      .mk .schema (txt "The header row of the data store '" ++ id ++ txt "' cannot be read. See nested exception for details.") 0 (some e)
    else
      .mk .schema (txt "The schema of the data store '" ++ id ++ txt "' cannot be inferred. See nested exception for details.") 0 (some e)
  else e

/-- The error about a cell that cannot be parsed, `csv_reader.cc` 702-716.  The precision `.64` of fmt 6.0.0 counts bytes. -/
def badCell (id : Bytes) (row : Nat) (col : Bytes) (type : String) (value : Bytes) : Exc :=
  .mk .invalidInstance (txt "The column '" ++ col ++ txt "' of the row #" ++ num row ++ txt " in the data store '" ++ id ++ txt "' cannot be parsed as " ++
    txt type ++ txt ". Its string value is '" ++ value.take 64 ++ txt "'.") 0 none

/-- The error about a cell that is too long, `csv_reader.cc` 655-676. -/
def longCell (id : Bytes) (row : Nat) (col : Bytes) (value : Bytes) : Exc :=
  .mk .invalidInstance (txt "The column '" ++ col ++ txt "' of the row #" ++ num row ++ txt " in the data store '" ++ id ++
    txt "' is too long. Its truncated value is '" ++ value.take 64 ++ txt "'.") 0 none

end Mlio
