import Verif.Model.Stores

/-!
# Listing the files of a directory tree

`src/mlio/data_stores/file_list.cc`, together with the traversal by `fts_open`/`fts_read` of the C library that it uses.
-/

namespace Mlio

/-- What stands under a name in the file system, links followed (`FTS_LOGICAL`, `file_list.cc` 78): a regular or block file, a
special file (a pipe, a socket; or a directory that is its own ancestor, which `fts` does not enter), a link to nothing
(`FTS_SLNONE`), something that cannot be examined or read (`FTS_NS`, `FTS_DNR`, `FTS_ERR`), or a directory with its entries in the
order in which the file system enumerates them. -/
inductive FsNode where
  | file
  | special
  | broken
  | failing
  | dir (entries : List (Bytes × FsNode))

/-- The path of an entry of a directory (`NAPPEND` in `fts.c`): no second slash behind one. -/
def joinPath (path name : Bytes) : Bytes := if path.getLast? = some 47 then path ++ name else path ++ 47 :: name

/-- What `fts_read` delivers for a path: a directory before and behind what is in it; `sort` is the `qsort` of `fts`, which gets
the entries of a directory, with what is delivered for each of them, and compares names with `natural_sort`, `file_list.cc`
66-69. -/
def walk (sort : List (Bytes × List FtsEntry) → List (Bytes × List FtsEntry)) : Bytes → FsNode → List FtsEntry
  | p, .file => [.file p]
  | p, .special => [.other p]
  | p, .broken => [.other p]
  | _, .failing => [.error]
  | p, .dir es =>
    .other p :: ((sort (es.attach.map fun e => (e.1.1, walk sort (joinPath p e.1.1) e.1.2))).flatMap fun e => e.2) ++ [.other p]
termination_by _ x => sizeOf x
decreasing_by
  have := List.sizeOf_lt_of_mem e.2
  have h : sizeOf e.1 = 1 + sizeOf e.1.1 + sizeOf e.1.2 := rfl
  simp only [FsNode.dir.sizeOf_spec]
  omega

/-- `list_files`, `file_list.cc` 71-84 and 89-144, for paths with what stands there: `fts_open` refuses empty paths and sorts the
others, by the whole path.  With no path at all, a small C program that
makes the same calls crashes in `fts_read` with the C library of the sandbox (GNU 2.39).  (A path with a NUL in it would be cut there; file systems have no such names.  Links to nothing and
directories that contain themselves are passed over, as in 106.) -/
def listTrees (pattern : Option (Bytes → Option Bool)) (predicate : Option (Bytes → Bool))
    (sort : List (Bytes × List FtsEntry) → List (Bytes × List FtsEntry)) (roots : List (Bytes × FsNode)) : Res (List Bytes) :=
  if roots.isEmpty then .ub "fts_read without paths"
  else if roots.any fun r => r.1.isEmpty then .err .systemError
  else listFiles pattern predicate ((sort (roots.map fun r => (r.1, walk sort r.1 r.2))).flatMap fun e => e.2)

end Mlio
