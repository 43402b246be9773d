import Verif.Model.PyError

/-! # What a Python user expects of errors -/

namespace Mlio.Spec

/-- The Python class with the name of a class of the library (or `OSError`, which is what Python calls errors of the system). -/
def pyName : ErrClass → Option PyType
  | .mlio => some "MLIOError"
  | .stream => some "StreamError"
  | .inflate => some "InflateError"
  | .record => some "RecordError"
  | .corruptRecord => some "CorruptRecordError"
  | .corruptHeader => some "CorruptHeaderError"
  | .corruptFooter => some "CorruptFooterError"
  | .recordTooLarge => some "RecordTooLargeError"
  | .dataReader => some "DataReaderError"
  | .schema => some "SchemaError"
  | .invalidInstance => some "InvalidInstanceError"
  | .notSupported => some "NotSupportedError"
  | .system => some "OSError"
  | _ => none

/-- The message as text. -/
def IsText (b : Bytes) (s : String) : Prop := s.toByteArray.data.toList = b

/-- The Python exception tells what the C++ exception tells: class, message, error number, and the same of the nested exception in `__cause__`. -/
inductive Tells : Exc → PyExc → Prop
  | mk (c : ErrClass) (w : Bytes) (k : Int) (t : PyType) (s : String) (n : Option Exc) (p : Option PyExc)
      (name : pyName c = some t) (msg : IsText w s)
      (none : n = none ↔ p = none) (cause : ∀ e q, n = some e → p = some q → Tells e q) :
      Tells (.mk c w k n) (.mk t s (if c = .system then some k else Option.none) p)

/-- All exceptions of the chain are of the library or of the system and their messages are text. -/
inductive Tellable : Exc → Prop
  | mk (c : ErrClass) (w : Bytes) (k : Int) (n : Option Exc) (t : PyType) (s : String) (name : pyName c = some t) (msg : IsText w s)
      (nested : ∀ e, n = some e → Tellable e) : Tellable (.mk c w k n)

end Mlio.Spec
