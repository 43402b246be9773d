import Verif.Model.PyStream

/-!
# What streams and readers written in Python are meant to do
-/

namespace Mlio.Spec

/-- The Python method that implements a call, and its argument. -/
def pyMethod : PyStreamCall → String × Nat
  | .readInto n => ("read", n)
  | .read n => ("read", n)
  | .seek p => ("seek", p)
  | .close => ("close", 0)
  | .size => ("size", 0)
  | .position => ("position", 0)
  | .seekable => ("seekable", 0)
  | .closed => ("closed", 0)

/-- The call gives what the method of the Python class gives. -/
def Obeys (o : PyObject) (c : PyStreamCall) : Prop :=
  ∀ f n, o.method (pyMethod c).1 = some f → f (pyMethod c).2 = .ok n → pyStreamCall o c = .value n

/-- Methods are named by identifiers, which have no quotes in them. -/
def PythonNames (o : PyObject) : Prop := ∀ name f, o.method name = some f → '"' ∉ name.toList

/-- The Python method that implements a call of a reader. -/
def pyReaderMethod : PyReaderCall → String
  | .readExample => "read_example"
  | .peekExample => "peek_example"
  | .readSchema => "read_schema"
  | .reset => "reset"
  | .numBytesRead => "num_bytes_read"

/-- What a call is meant to end with: what the method gives; an exception, if it raises one or is missing. -/
def methodOutcome (o : PyObject) (name : String) : PyOutcome :=
  match o.method name with
  | none => .error
  | some f => match f 0 with
    | .ok n => .value n
    | .error _ => .error

end Mlio.Spec
