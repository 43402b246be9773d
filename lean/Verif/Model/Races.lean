import Verif.Model.SchemaReader

/-!
# Shared members of a parallel reader and who uses them

`src/mlio/parallel_data_reader.cc` and `src/mlio/data_reader_base.cc`: which members each move of `Verif/Model/SchemaReader.lean`
reads and writes, and whether it does so with `queue_mutex_` held or by an atomic operation.  The
members used by one thread only in the code (`thread_`) and the objects of the TBB library (`graph_`, whose functions synchronize
themselves, and the messages, which belong to one task) are left out.
-/

namespace Mlio

/-- The members, `parallel_data_reader.h` 109-122; `reader` is `reader_` and `batch_reader_` with all that they own,
`derived` the members of the derived class that `infer_schema` sets and `decode` uses, `peeked` the example of
`data_reader_base.h`. -/
inductive Member where
  | state | fillQueue | readQueue | exception | numBytes | schema | reader | derived | peeked
  deriving DecidableEq, Repr

/-- One use of a member. -/
structure Access where
  member : Member
  write : Bool
  locked : Bool := false
  atomic : Bool := false
  deriving DecidableEq, Repr

/-- The threads: the one of the user, the one that waits for the graph, and those that run the bodies of nodes; the source and
the queue node run one body at a time, the decode node any number. -/
inductive Thread where
  | user | background | source | queue | decoder (i : Nat) | library
  deriving DecidableEq, Repr

/-- Who does a move. -/
def WAct.thread : WAct → Thread
  | .readSchema => .user
  | .dact (.call _) => .user
  | .dact .reset => .user
  | .dact (.sys a) =>
    match a with
    | .cStep | .cJoin | .callRead | .callReset => .user
    | .finish => .background
    | .produce => .source
    | .qStart | .qStep => .queue
    | .decode i => .decoder i
    | .send | .forward | .dropDecode _ | .dropQueue => .library

section
variable {α ε S ι : Type} {b : Nat} {l : LastHandling} {r : Machine α}

/-- `ensure_schema_inferred`, 284-291. -/
def inferAccesses (w : WState b l r ε S ι) : List Access :=
  { member := .schema, write := false } ::
    if w.schema.isSome then []
    else [{ member := .reader, write := true }, { member := .derived, write := true }, { member := .schema, write := true }]

/-- The rest of `reset`, 304-317 with `data_reader_base.cc` 41-44. -/
def resetAccesses : List Access :=
  [{ member := .state, write := true }, { member := .reader, write := true }, { member := .exception, write := true },
    { member := .numBytes, write := true, atomic := true }, { member := .peeked, write := true }]

/-- What a move uses, in the state before it. -/
def accesses (w : WState b l r ε S ι) : WAct → List Access
  | .readSchema => inferAccesses w
  | .dact (.call _) =>
    -- `data_reader_base.cc` 24-38
    { member := .peeked, write := true } ::
    if w.d.peeked.isSome then []
    else
      inferAccesses w ++
      -- 114, 136-142
      { member := .readQueue, write := true } ::
      if w.d.p.read.isEmpty then
        -- 149, 153
        { member := .state, write := false } ::
          (if w.d.p.status = .notStarted then [{ member := .state, write := true }] else [])
      else []
  | .dact .reset =>
    -- 76
    { member := .state, write := false } ::
    if w.d.p.status = .notStarted then resetAccesses
    -- 80, 83-89
    else [{ member := .readQueue, write := true }, { member := .fillQueue, write := true, locked := true }]
  | .dact (.sys a) =>
    match a with
    -- 118-144
    | .cStep =>
      [{ member := .state, write := false, locked := true }, { member := .fillQueue, write := true, locked := true },
        { member := .readQueue, write := true }, { member := .peeked, write := true }] ++
      (if w.d.p.status = .faulted then [{ member := .exception, write := false, locked := true }] else [])
    | .cJoin => resetAccesses
    -- 169-182
    | .finish =>
      [{ member := .exception, write := true }, { member := .state, write := true, locked := true }]
    -- 208-217
    | .produce => [{ member := .reader, write := true }]
    -- 226-237
    | .decode _ =>
      [{ member := .schema, write := false }, { member := .derived, write := false },
        { member := .numBytes, write := true, atomic := true }]
    -- 252-264
    | .qStep => [{ member := .fillQueue, write := true, locked := true }]
    | _ => []

end

end Mlio
