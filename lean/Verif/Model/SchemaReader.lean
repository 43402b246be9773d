import Verif.Model.DataReader

/-!
# Schema inference of parallel readers

`ensure_schema_inferred`, `read_schema` and their use in `read_example_core`, `src/mlio/parallel_data_reader.cc` 96-98 and
284-298, on top of `Verif/Model/DataReader.lean`.

The instance reader is any class derived from `Instance_reader_base`; the user's thread peeks at its first instance, the background
thread reads from it.  That both use it at the same time would be a data race: undefined behaviour.
-/

namespace Mlio

/-- A `Parallel_data_reader` over the instance reader `r`: `schema_` (`parallel_data_reader.h` 122), the members of the derived class that
`infer_schema` changes, and (for specifications only) whether there was a data race and what the calls of
`ensure_schema_inferred` have led to. -/
structure WState {α : Type} (b : Nat) (l : LastHandling) (r : Machine α) (ε S ι : Type) where
  d : DState (batched b l r.base) ε
  mem : ι
  schema : Option S := none
  race : Bool := false
  told : List (Res (Option S)) := []

/-- A new reader. -/
def WState.init {α ε S ι : Type} (b : Nat) (l : LastHandling) (r : Machine α) (mem : ι) : WState b l r ε S ι :=
  { d := DState.init _, mem := mem }

/-- What can happen next: as for `DAct`, and the user calls `read_schema`. -/
inductive WAct where
  | readSchema
  | dact (a : DAct)
  deriving DecidableEq, Repr

section
variable {α ε S ι : Type} {b : Nat} {l : LastHandling} {r : Machine α}

/-- `infer_schema` of the derived class: from its members and the first instance, if any, the schema (or none) or an
error, and the members afterwards. -/
abbrev Infer (α S ι : Type) := ι → Option α → Res (Option S) × ι

/-- `ensure_schema_inferred`, `parallel_data_reader.cc` 284-291. -/
def ensureSchema (infer : Infer α S ι) (w : WState b l r ε S ι) : Res (Option S) × WState b l r ε S ι :=
  match w.schema with
  | some s => (.ok (some s), w)
  | none =>
    let w := { w with race := w.race || decide (w.d.p.status = RunState.running) }
    match basePeek r w.d.p.src.1 with
    | (.ok inst, i) =>
      let w := { w with d := { w.d with p := { w.d.p with src := (i, w.d.p.src.2) } } }
      match infer w.mem inst with
      | (.ok s, mem) => (.ok s, { w with mem := mem, schema := s })
      | (.err e, mem) => (.err e, { w with mem := mem })
      | (.ub u, mem) => (.ub u, { w with mem := mem })
    | (.err e, i) => (.err e, { w with d := { w.d with p := { w.d.p with src := (i, w.d.p.src.2) } } })
    | (.ub u, i) => (.ub u, { w with d := { w.d with p := { w.d.p with src := (i, w.d.p.src.2) } } })

/-- A move.  `read_schema` is `parallel_data_reader.cc` 293-298.  `read_example` and `peek_example` infer the schema at the begin
of `read_example_core` (96-98), that is, if there is no peeked example; if that fails, they fail. -/
def wstep (P Q : Nat) (size : α → Nat) (dec : Batch α → Except Err (Option ε)) (infer : Infer α S ι) (a : WAct)
    (w : WState b l r ε S ι) : Option (WState b l r ε S ι) :=
  match a with
  | .readSchema =>
    if w.d.p.consumer = .idle then
      let (o, w') := ensureSchema infer w
      some { w' with told := w'.told ++ [o] }
    else none
  | .dact (.call c) =>
    if w.d.p.consumer = .idle ∧ w.d.peeked.isNone then
      match ensureSchema infer w with
      | (.ok s, w') => (dCall c w'.d).map fun d => { w' with d := d, told := w'.told ++ [.ok s] }
      | (o, w') => some { w' with told := w'.told ++ [o] }
    else (dCall c w.d).map fun d => { w with d := d }
  | .dact a => (dstep P Q size dec a w.d).map fun d => { w with d := d }

/-- An execution. -/
def wrun (P Q : Nat) (size : α → Nat) (dec : Batch α → Except Err (Option ε)) (infer : Infer α S ι) :
    List WAct → WState b l r ε S ι → Option (WState b l r ε S ι)
  | [], w => some w
  | a :: as, w => (wstep P Q size dec infer a w).bind (wrun P Q size dec infer as)

end

end Mlio
