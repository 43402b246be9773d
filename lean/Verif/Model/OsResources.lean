import Verif.Basic

/-!
# Descriptors, mappings and temporary files

`include/mlio/detail/file_descriptor.h`, `src/mlio/streams/file_input_stream.cc`,
`src/mlio/memory/file_mapped_memory_block.cc`, `src/mlio/memory/file_backed_memory_block.cc` over a kernel that may let
every call fail and that chooses the numbers of descriptors and the addresses of mappings as it likes, so that it can give
the number of a closed descriptor to somebody else.  Simplified: an address stands for a whole mapping (mappings do not
overlap).  What is in the memory is the matter of C55; when objects are destroyed that of C57.
-/

namespace Mlio

/-- Who opened a descriptor or made a mapping: the object with the given number, or (`none`) the rest of the process.  The
kernel does not know it; it is kept for the statements. -/
abbrev Owner := Option Nat

/-- A descriptor, with the length of the file behind it. -/
structure Fd where
  num : Nat
  owner : Owner
  cloexec : Bool
  len : Nat
  deriving DecidableEq, Repr

/-- A mapping. -/
structure Mapping where
  addr : Nat
  len : Nat
  owner : Owner
  deriving DecidableEq, Repr

/-- What the kernel keeps for the process: descriptors, mappings, and the files that `mkstemp` has made and that still have
their names (by the object that made them). -/
structure Kernel where
  fds : List Fd
  maps : List Mapping
  names : List Nat

/-- `open(2)`, `mkstemp(3)`: the lowest free number, or any other; `none` is a failure. -/
def Kernel.openFd (k : Kernel) (who : Owner) (cloexec : Bool) (len : Nat) (choice : Option Nat) : Kernel × Option Nat :=
  match choice with
  | none => (k, none)
  | some n =>
    if n ∈ k.fds.map Fd.num then (k, none)
    else ({ k with fds := ⟨n, who, cloexec, len⟩ :: k.fds }, some n)

/-- `close(2)`: whoever opened the descriptor. -/
def Kernel.closeFd (k : Kernel) (n : Nat) : Kernel := { k with fds := k.fds.filter (fun f => f.num != n) }

/-- `ftruncate(2)`, if it succeeds. -/
def Kernel.truncate (k : Kernel) (n len : Nat) : Kernel :=
  { k with fds := k.fds.map (fun f => if f.num = n then { f with len := len } else f) }

/-- `mmap(2)`. -/
def Kernel.map (k : Kernel) (who : Owner) (len : Nat) (choice : Option Nat) : Kernel × Option Nat :=
  match choice with
  | none => (k, none)
  | some a =>
    if a ∈ k.maps.map Mapping.addr then (k, none)
    else ({ k with maps := ⟨a, len, who⟩ :: k.maps }, some a)

/-- `munmap(2)`: whoever made the mapping.  Simplified: a length other than that of the mapping leaves it (in truth a part of
it, or of what is next to it, would go). -/
def Kernel.unmap (k : Kernel) (a len : Nat) : Kernel :=
  { k with maps := k.maps.filter (fun m => !(m.addr == a && m.len == len)) }

/-- `mremap(2)` with `MREMAP_MAYMOVE`: the mapping stays or moves. -/
def Kernel.remap (k : Kernel) (who : Owner) (a old len : Nat) (choice : Option Nat) : Kernel × Option Nat :=
  match choice with
  | none => (k, none)
  | some b =>
    if b ∈ (k.unmap a old).maps.map Mapping.addr then (k, none)
    else ({ k.unmap a old with maps := ⟨b, len, who⟩ :: (k.unmap a old).maps }, some b)

/-- `execve(2)`: what a program started by the process finds open. -/
def Kernel.exec (k : Kernel) : List Fd := k.fds.filter (fun f => !f.cloexec)

/-- Who opened a descriptor. -/
def Kernel.fdOwner (k : Kernel) (n : Nat) : Option Owner := (k.fds.find? (fun f => f.num == n)).map Fd.owner

/-- Who made the mapping at an address, with a length. -/
def Kernel.mapOwner (k : Kernel) (a len : Nat) : Option Owner :=
  (k.maps.find? (fun m => m.addr == a && m.len == len)).map Mapping.owner

/-- The objects: a `File_input_stream` (`file_input_stream.h` 62-64), a `File_mapped_memory_block`
(`file_mapped_memory_block.h` 59-61) and a `File_backed_memory_block` (`file_backed_memory_block.h` 78-80).  A
`File_descriptor` (`file_descriptor.h` 82-84) is `none` if it is invalid, a pointer if it is null. -/
inductive OsObj where
  | stream (fd : Option Nat)
  | mapped (data : Option Nat) (size : Nat)
  | backed (fd : Option Nat) (data : Option Nat) (size : Nat)
  deriving DecidableEq, Repr

/-- The kernel, the objects, and the calls that were made: which object, and who had opened what the call was about. -/
structure OsState where
  kernel : Kernel
  objs : Nat → Option OsObj
  used : List (Nat × Option Owner)

def OsState.init : OsState := ⟨⟨[], [], []⟩, fun _ => none, []⟩

def OsState.put (s : OsState) (i : Nat) (o : Option OsObj) : OsState :=
  { s with objs := fun j => if j = i then o else s.objs j }

/-- A call about a descriptor. -/
def OsState.useFd (s : OsState) (i n : Nat) : OsState := { s with used := (i, s.kernel.fdOwner n) :: s.used }

/-- A call about a mapping. -/
def OsState.useMap (s : OsState) (i a len : Nat) : OsState := { s with used := (i, s.kernel.mapOwner a len) :: s.used }

/-- `File_descriptor::close_fd`, `file_descriptor.h` 71-80, in its destructor (55-58) or its assignment (46-53). -/
def OsState.closeFd (s : OsState) (i : Nat) : Option Nat → OsState
  | none => s
  | some n => { s.useFd i n with kernel := s.kernel.closeFd n }

/-- `munmap` in the destructors, `file_mapped_memory_block.cc` 46-48 and `file_backed_memory_block.cc` 46-48. -/
def OsState.unmap (s : OsState) (i : Nat) (data : Option Nat) (size : Nat) : OsState :=
  match data with
  | none => s
  | some a => { s.useMap i a size with kernel := s.kernel.unmap a size }

/-- What a call returns: the value, or an exception. -/
inductive OsOut where
  | ok | error
  deriving DecidableEq, Repr

/-- The constructor of `File_input_stream`, `file_input_stream.cc` 36-51. -/
def OsState.newStream (s : OsState) (i len : Nat) (fd : Option Nat) : OsState × OsOut :=
  match s.kernel.openFd (some i) true len fd with
  | (k, none) => ({ s with kernel := k }, .error)
  | (k, some n) => ((({ s with kernel := k }).useFd i n).put i (some (.stream (some n))), .ok)

/-- `File_mapped_memory_block::init_memory_map`, `file_mapped_memory_block.cc` 51-75; `stat` says whether `fstat` succeeds. -/
def OsState.newMapped (s : OsState) (i len : Nat) (fd : Option Nat) (stat : Bool) (addr : Option Nat) : OsState × OsOut :=
  match s.kernel.openFd (some i) true len fd with
  | (k, none) => ({ s with kernel := k }, .error)
  | (k, some n) =>
    let s := ({ s with kernel := k }).useFd i n
    if stat then
      if len = 0 then ((s.closeFd i (some n)).put i (some (.mapped none 0)), .ok)
      else
        let s := s.useFd i n
        match s.kernel.map (some i) len addr with
        | (k, none) => (({ s with kernel := k }).closeFd i (some n), .error)
        | (k, some a) => ((({ s with kernel := k }).closeFd i (some n)).put i (some (.mapped (some a) len)), .ok)
    else (s.closeFd i (some n), .error)

/-- The constructor of `File_backed_memory_block` and `make_temporary_file`, `file_backed_memory_block.cc` 32-64; if it
throws, the destructor of the member `fd_` runs.  `trunc` and `unlink` say whether `ftruncate` and `unlink` succeed. -/
def OsState.newBacked (s : OsState) (i size : Nat) (fd : Option Nat) (trunc unlink : Bool) (addr : Option Nat) :
    OsState × OsOut :=
  match s.kernel.openFd (some i) false 0 fd with
  | (k, none) => ({ s with kernel := k }, .error)
  | (k, some n) =>
    let s := ({ s with kernel := { k with names := i :: k.names } }).useFd i n
    if trunc then
      let k := s.kernel.truncate n size
      let s := { s with kernel := { k with names := if unlink then k.names.erase i else k.names } }
      if size = 0 then (s.put i (some (.backed (some n) none 0)), .ok)
      else
        let s := s.useFd i n
        match s.kernel.map (some i) size addr with
        | (k, none) => (({ s with kernel := k }).closeFd i (some n), .error)
        | (k, some a) => (({ s with kernel := k }).put i (some (.backed (some n) (some a) size)), .ok)
    else (s.closeFd i (some n), .error)

/-- `File_backed_memory_block::resize`, `file_backed_memory_block.cc` 66-120, on Linux. -/
def OsState.resizeBacked (s : OsState) (i n : Nat) (data : Option Nat) (old size : Nat) (trunc : Bool)
    (addr : Option Nat) : OsState × OsOut :=
  if size = old then (s, .ok)
  else
    let s := s.useFd i n
    if trunc then
      let s := { s with kernel := s.kernel.truncate n size }
      if old = 0 then
        let s := s.useFd i n
        match s.kernel.map (some i) size addr with
        | (k, none) => ({ s with kernel := k }, .error)
        | (k, some a) => (({ s with kernel := k }).put i (some (.backed (some n) (some a) size)), .ok)
      else if size = 0 then ((s.unmap i data old).put i (some (.backed (some n) none 0)), .ok)
      else
        match data with
        | none => (s, .error)
        | some a =>
          let s := s.useMap i a old
          match s.kernel.remap (some i) a old size addr with
          | (k, none) => ({ s with kernel := k }, .error)
          | (k, some b) => (({ s with kernel := k }).put i (some (.backed (some n) (some b) size)), .ok)
    else (s, .error)

/-- `read`, `seek`, `size` and `position` of a stream, `file_input_stream.cc` 53-130: a closed one is refused. -/
def OsState.callStream (s : OsState) (i : Nat) : Option Nat → OsState × OsOut
  | none => (s, .error)
  | some n => (s.useFd i n, .ok)

/-- The destructors: those of the members follow that of the class. -/
def OsState.destroy (s : OsState) (i : Nat) : OsObj → OsState
  | .stream fd => (s.closeFd i fd).put i none
  | .mapped data size => (s.unmap i data size).put i none
  | .backed fd data size => ((s.unmap i data size).closeFd i fd).put i none

/-- What can happen: calls of the library, with what the kernel answers, and what the rest of the process does with its own
descriptors and mappings. -/
inductive OsAct where
  | newStream (i len : Nat) (fd : Option Nat)
  | newMapped (i len : Nat) (fd : Option Nat) (stat : Bool) (addr : Option Nat)
  | newBacked (i size : Nat) (fd : Option Nat) (trunc unlink : Bool) (addr : Option Nat)
  | call (i : Nat)
  | close (i : Nat)
  | resize (i size : Nat) (trunc : Bool) (addr : Option Nat)
  | destroy (i : Nat)
  | otherOpen (n : Nat) (cloexec : Bool) (len : Nat)
  | otherClose (n : Nat)
  | otherMap (a len : Nat)
  | otherUnmap (a len : Nat)

/-- One of them.  The number of a new object is a new one.  `close` is `file_input_stream.cc` 90-93. -/
def ostep (s : OsState) : OsAct → OsState × OsOut
  | .newStream i len fd => if (s.objs i).isSome then (s, .error) else s.newStream i len fd
  | .newMapped i len fd stat addr => if (s.objs i).isSome then (s, .error) else s.newMapped i len fd stat addr
  | .newBacked i size fd trunc unlink addr =>
    if (s.objs i).isSome then (s, .error) else s.newBacked i size fd trunc unlink addr
  | .call i =>
    match s.objs i with
    | some (.stream fd) => s.callStream i fd
    | _ => (s, .error)
  | .close i =>
    match s.objs i with
    | some (.stream fd) => ((s.closeFd i fd).put i (some (.stream none)), .ok)
    | _ => (s, .error)
  | .resize i size trunc addr =>
    match s.objs i with
    | some (.backed (some n) data old) => s.resizeBacked i n data old size trunc addr
    | _ => (s, .error)
  | .destroy i =>
    match s.objs i with
    | some o => (s.destroy i o, .ok)
    | none => (s, .error)
  | .otherOpen n cloexec len => ({ s with kernel := (s.kernel.openFd none cloexec len (some n)).1 }, .ok)
  | .otherClose n =>
    if s.kernel.fdOwner n = some none then ({ s with kernel := s.kernel.closeFd n }, .ok) else (s, .error)
  | .otherMap a len => ({ s with kernel := (s.kernel.map none len (some a)).1 }, .ok)
  | .otherUnmap a len =>
    if s.kernel.mapOwner a len = some none then ({ s with kernel := s.kernel.unmap a len }, .ok) else (s, .error)

def orun (s : OsState) : List OsAct → OsState
  | [] => s
  | a :: as => orun (ostep s a).1 as

end Mlio
