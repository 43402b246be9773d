import Verif.Model.PyError
import Verif.Model.S3World

/-!
# Errors when a data store is opened

`core_instance_reader.cc` 212-228 and `instance.cc` 39-54 with the codes of the errors (`Model/CoreReader.lean` and `Model/ImageReader.lean` do not tell
system errors apart), and the codes of errors of S3, `s3_client.cc` 60-85.  Codes are the numbers of Linux; the comparison with `std::errc` is by the
number, as for the generic and the system category.
-/

namespace Mlio
open Spec

/-- `code().value()` of an exception. -/
def Exc.code : Exc → Int
  | .mk _ _ k _ => k

/-- The `catch` clause around the opening of a data store: `core_instance_reader.cc` 215-227, `instance.cc` 43-54. -/
def openError (id : Bytes) (e : Exc) : Exc :=
  if e.cls.isA .system then
    if e.code = 2 then .mk .dataReader (txt "The data store '" ++ id ++ txt "' does not exist.") 0 none
    else if e.code = 13 then .mk .dataReader (txt "The permission to read the data store '" ++ id ++ txt "' is denied.") 0 none
    else e
  else e

/-- What reading a record throws if the record reader for the data store cannot be made: `core_instance_reader.cc` 49-54 and 212-228 (`record_idx_` is zero,
199). -/
def coreOpenError (id : Bytes) (e : Exc) : Exc := coreHandleErrors id 0 (openError id e)

/-- What loading an instance that is a whole data store throws if that cannot be opened: `instance.cc` 39-54 (outside of `handle_errors`). -/
def instanceOpenError (id : Bytes) (e : Exc) : Exc := openError id e

/-- The numbers of the codes at `s3_client.cc` 66-81. -/
def sysNumber : SysCode → Int
  | .hostUnreachable => 113
  | .permissionDenied => 13
  | .noSuchFile => 2
  | .timedOut => 110
  | .ioError => 5
  | .invalidArgument => 22

/-- `throw_s3_error`, `s3_client.cc` 60-85, with the exception. -/
def s3Exc (f : S3Error) : Exc := .mk .system (txt "The S3 object cannot be accessed.") (sysNumber (s3Code f)) none

end Mlio
