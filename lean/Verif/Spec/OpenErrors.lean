import Verif.Spec.PyError
import Verif.Spec.S3Service
import Verif.Model.OpenErrors

/-! # What is to be said about a data store that cannot be opened -/

namespace Mlio.Spec

/-- The message has the name of the data store in it, in quotes. -/
def Names (id : Bytes) (e : Exc) : Prop := ∃ before after, e.what = before ++ [39] ++ id ++ [39] ++ after

/-- Errors of the system: no such file or directory, and permission denied. -/
def IsMissing (e : Exc) : Prop := ∃ w n, e = .mk .system w 2 n

def IsDenied (e : Exc) : Prop := ∃ w n, e = .mk .system w 13 n

/-- Errors that data stores, streams and record readers report: those of the library for streams, records and what is not supported, and those of the
system. -/
def OfStore (e : Exc) : Prop :=
  e.cls.isA .recordTooLarge ∨ e.cls.isA .corruptRecord ∨ e.cls.isA .stream ∨ e.cls.isA .notSupported ∨ e.cls.isA .system

/-- What was said is that the data store does not exist; that it may not be read. -/
def SaysMissing (id : Bytes) (e : Exc) : Prop := e.what = txt "The data store '" ++ id ++ txt "' does not exist."

def SaysDenied (id : Bytes) (e : Exc) : Prop := e.what = txt "The permission to read the data store '" ++ id ++ txt "' is denied."

/-- The errors of S3 that are neither a missing object or bucket nor a lack of access, each with the number that Linux has for it: no route to the host
(113) if the service is not available, connection timed out (110), and otherwise an error of input or output (5). -/
inductive S3Number : S3Error → Int → Prop where
  | unavailable : S3Number .serviceUnavailable 113
  | slow : S3Number .requestTimeout 110
  | other : S3Number .other 5

end Mlio.Spec
