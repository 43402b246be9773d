import Verif.Model.OpenErrors
import Verif.Model.FileTree

/-!
# Errors of listing files

`file_list.cc` 71-84 and 96-102 with messages and codes, for paths that cannot be looked up.  What `fts` does is from general knowledge; that `fts_open` looks up
all paths, keeps the error of each of them in its entry, and that `fts_read` delivers the entries of the paths without setting `errno` was seen in a run of a
small C program with the C library of the sandbox (GNU 2.39).  Left out: what else changes `errno` in between (a predicate, for example), and directories that
cannot be read, for which `fts_read` has just set it.
-/

namespace Mlio

/-- `errno` when `fts_open` (`file_list.cc` 78) is done: it looks up the paths in the order given; a path that cannot be looked up sets it, the others leave it. -/
def openErrno (errno : Int) : List (Bytes × Option Int) → Int
  | [] => errno
  | (_, some code) :: roots => openErrno code roots
  | (_, none) :: roots => openErrno errno roots

/-- The exception of `list_files`, `file_list.cc` 96-102, if there is one: paths with the error of looking them up (`none`: there is none, and everything below the
path can be read).  The entries come sorted; the first that is in error is reported, with `errno` (99) instead of the error in the entry. -/
def listError (sort : List (Bytes × Option Int) → List (Bytes × Option Int)) (errno : Int) (roots : List (Bytes × Option Int)) : Option Exc :=
  match (sort roots).find? fun r => r.2.isSome with
  | none => none
  | some r => some (.mk .system (txt "The file or directory '" ++ r.1 ++ txt "' cannot be opened.") (openErrno errno roots) none)

end Mlio
