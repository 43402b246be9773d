import Verif.Proofs.SchemaReader

/-!
# C71: the schema is inferred once, from the first instance, and does not disturb reading

Missing: readers whose epochs do not go on failing once they have failed, which `Epochs` excludes; these are the ones that sample data that
cannot be read, see `C103_sampling_violated`, and those told to read no instances, see `C103_none_violated`.
-/

namespace Mlio
open Spec Machine

section
variable {α ε S ι : Type} {b : Nat} {l : LastHandling} {r : Machine α} {P Q : Nat} {size : α → Nat}
  {dec : Batch α → Except Err (Option ε)} {infer : Infer α S ι}

/-- **C71**, no data race: whatever the schedule and the calls, the user's thread never looks at the instance
reader while the background threads may read from it. -/
theorem C71_no_race (hP : 0 < P) (hm : Sources (batched b l r.base)) (hr : Epochs r)
    (hnn : ∀ mem x, (infer mem (some x)).1 ≠ .ok none) (mem : ι) (w : WState b l r ε S ι)
    (hw : WReachable P Q size dec infer mem w) : w.race = false := by
  obtain ⟨_, _, _, _, h⟩ := winv hP hm hr hnn hw
  exact h.race

/-- **C71**: what `read_schema` and the inference before an example have led to is the error with which an epoch begins, or what
`infer_schema` says of the first instance of an epoch; and all schemas are the same one. -/
theorem C71_first_instance_partial (hP : 0 < P) (hm : Sources (batched b l r.base)) (hr : Epochs r)
    (hnn : ∀ mem x, (infer mem (some x)).1 ≠ .ok none) (mem : ι) (w : WState b l r ε S ι)
    (hw : WReachable P Q size dec infer mem w) :
    (∀ o ∈ w.told, Explains r infer o) ∧
    ∀ s s', .ok (some s) ∈ w.told → .ok (some s') ∈ w.told → s = s' := by
  obtain ⟨_, _, _, _, h⟩ := winv hP hm hr hnn hw
  refine ⟨h.told, fun s s' h1 h2 => ?_⟩
  have := (h.same s h1).symm.trans (h.same s' h2)
  simpa using this

/-- **C71**: all attempts to infer the schema, in order: each asks `infer_schema` about the first instance of the epoch it falls in, with the members
of the reader as the attempt before has left them, until there is a schema, which then is what all attempts give. -/
theorem C71_attempts_partial (hP : 0 < P) (hm : Sources (batched b l r.base)) (hr : Epochs r)
    (hnn : ∀ mem x, (infer mem (some x)).1 ≠ .ok none) (mem : ι) (w : WState b l r ε S ι)
    (hw : WReachable P Q size dec infer mem w) : Attempts r infer mem w.told w.mem :=
  attempts_reachable hP hm hr hnn hw

/-- **C71**: once the schema is inferred it stays, over resets too, and so do the members that `infer_schema` has set:
they are those that the inference of this schema has left. -/
theorem C71_stable (hP : 0 < P) (hm : Sources (batched b l r.base)) (hr : Epochs r)
    (hnn : ∀ mem x, (infer mem (some x)).1 ≠ .ok none) (mem : ι) (w w' : WState b l r ε S ι)
    (hw : WReachable P Q size dec infer mem w) (as : List WAct) (hrun : wrun P Q size dec infer as w = some w') (s : S)
    (hs : w.schema = some s) :
    w'.schema = some s ∧ ∃ xs t mem', EpochOf r xs t ∧ infer mem' xs.head? = (.ok (some s), w'.mem) := by
  have h := winv hP hm hr hnn hw
  obtain ⟨⟨_, _, _, _, h1⟩, h2⟩ := wrun_inv hP hm hr hnn as h hrun
  obtain ⟨xs, t, mem', h3, _, h4⟩ := h1.schema s (h2 s hs)
  exact ⟨h2 s hs, xs, t, mem', h3, h4⟩

/-- **C71**: no batch is decoded before the schema is known. -/
theorem C71_decode_has_schema (hP : 0 < P) (hm : Sources (batched b l r.base)) (hr : Epochs r)
    (hnn : ∀ mem x, (infer mem (some x)).1 ≠ .ok none) (mem : ι) (w w' : WState b l r ε S ι)
    (hw : WReachable P Q size dec infer mem w) (i : Nat)
    (hd : wstep P Q size dec infer (.dact (.sys (.decode i))) w = some w') : ∃ s, w.schema = some s := by
  obtain ⟨bs, t, ys, t', h⟩ := winv hP hm hr hnn hw
  cases hs : w.schema with
  | some s => exact ⟨s, rfl⟩
  | none =>
    exfalso
    obtain ⟨_, ⟨pos, hp⟩, _⟩ := h.ei
    have : ∃ c, c ∈ w.d.p.decoding := by
      simp only [wstep, dstep, PAct.isCall, pstep, pDecode, Option.map_eq_some_iff] at hd
      obtain ⟨_, hd, _⟩ := hd
      simp only [Bool.false_eq_true, if_false, Option.map_eq_some_iff] at hd
      obtain ⟨_, hd, _⟩ := hd
      split at hd
      · split at hd
        · rename_i hx
          exact ⟨_, List.mem_of_getElem? hx⟩
        · simp at hd
      · simp at hd
    obtain ⟨c, hc⟩ := this
    by_cases hn : w.d.p.status = .notStarted
    · rw [(hp.fresh hn).2.2.1] at hc; simp at hc
    · have := hp.decoding c hc
      rw [(h.empty hs hn).1] at this
      simp at this

/-- **C71**: reading, peeking and counting bytes go on as if there were no schema inference. -/
theorem C71_undisturbed_partial (hP : 0 < P) (hm : Sources (batched b l r.base)) (hr : Epochs r)
    (hnn : ∀ mem x, (infer mem (some x)).1 ≠ .ok none) (mem : ι) (w : WState b l r ε S ι)
    (hw : WReachable P Q size dec infer mem w) :
    ∃ bs t, Source (batched b l r.base) w.d.p.start bs t ∧ Session (examples dec bs) (Fails dec bs t) w.d.hist ∧
      (∃ ahead : List (Batch α), ahead.Sublist ((fruitful dec bs).drop (shown w.d.hist)) ∧
        w.d.bytes = bytesOf size ((fruitful dec bs).take (shown w.d.hist)) + bytesOf size ahead) := by
  obtain ⟨bs, t, _, _, h⟩ := winv hP hm hr hnn hw
  have he := h.ei
  obtain ⟨hs, ⟨_, hp⟩, _⟩ := h.ei
  exact ⟨bs, t, hs, (session_of h.si hp).1, (bytes_of h.si he).1⟩

/-- **C71**: a call that has not returned is never stuck. -/
theorem C71_no_deadlock (hP : 0 < P) (hQ : 0 < Q) (hm : Sources (batched b l r.base)) (hr : Epochs r)
    (hnn : ∀ mem x, (infer mem (some x)).1 ≠ .ok none) (mem : ι) (w : WState b l r ε S ι)
    (hw : WReachable P Q size dec infer mem w) (hc : w.d.p.consumer ≠ .idle) :
    ∃ a w', wstep P Q size dec infer (.dact (.sys a)) w = some w' := by
  obtain ⟨bs, t, _, _, h⟩ := winv hP hm hr hnn hw
  obtain ⟨hs, ⟨_, hp⟩, _⟩ := h.ei
  obtain ⟨a, p, ha, hp⟩ := hp.progress hP hQ hs hc
  refine ⟨a, ?_⟩
  simp only [wstep, dstep, ha, hp, Option.map_some]
  exact ⟨_, rfl⟩

end

/-- Three instances; the schema is the width of the first one. -/
abbrev threeRows : Machine (List Nat) := listMachine [[1, 2], [3, 4], [5, 6]]

/-- Fails the first time, as an `infer_schema` that runs out of memory would; counts its calls. -/
def widthOf : Infer (List Nat) Nat Nat := fun n inst =>
  match inst with
  | none => (.ok none, n + 1)
  | some x => if n = 0 then (.err .systemError, n + 1) else (.ok (some x.length), n + 1)

-- The hypotheses are met.
example : Epochs threeRows :=
  ⟨⟨_, _, Or.inl rfl, listMachine_yields _ _⟩, fun _ => ⟨_, _, Or.inl rfl, listMachine_yields _ _⟩⟩

example : Sources (batched 2 .none_ threeRows.base) := by
  have h : Source (batched 2 .none_ threeRows.base) (batched 2 .none_ threeRows.base).init
      [⟨0, [[1, 2], [3, 4]], 2⟩, ⟨1, [[5, 6]], 1⟩] (.ok none) := by
    refine ⟨(C24_batches_partial threeRows.base _ (base_yields (listMachine_yields _ _)) 2 (by decide) .none_ (by decide)).readsTo, ?_, Or.inl rfl⟩
    intro i b h
    match i, h with
    | 0, h => simp at h; subst h; rfl
    | 1, h => simp at h; subst h; rfl
    | n + 2, h => simp at h
  exact ⟨⟨_, _, h⟩, fun _ => ⟨_, _, h⟩⟩

example : ∀ mem x, (widthOf mem (some x)).1 ≠ .ok none := by
  intro mem x
  simp only [widthOf]
  split <;> simp

-- The first inference fails, the second succeeds; all three rows are read all the same, and the schema is inferred once.
example : ((wrun (b := 2) (l := .none_) (r := threeRows) 2 2 List.length (fun b => .ok (some b.instances)) widthOf
    [.readSchema, .dact (.call .peek), .readSchema, .dact (.sys .produce), .dact (.sys .send)] (WState.init 2 .none_ threeRows 0)).isNone) = true := by
  decide

example : ((wrun (b := 2) (l := .none_) (r := threeRows) 2 2 List.length (fun b => .ok (some b.instances)) widthOf
    ([.readSchema, .dact (.call .peek), .dact (.sys .produce), .dact (.sys .send), .dact (.sys (.decode 0)), .dact (.sys .forward),
      .dact (.sys .qStart), .dact (.sys .qStep), .dact (.sys .cStep), .readSchema, .dact (.call .read), .dact (.call .read),
      .dact (.sys .produce), .dact (.sys .send), .dact (.sys (.decode 0)), .dact (.sys .forward),
      .dact (.sys .qStart), .dact (.sys .qStep), .dact (.sys .cStep)]) (WState.init 2 .none_ threeRows 0)).map
    fun w => (w.d.hist, w.told, w.mem)) =
    some ([(.peek, .ok (some [[1, 2], [3, 4]])), (.read, .ok (some [[1, 2], [3, 4]])), (.read, .ok (some [[5, 6]]))],
      [.err .systemError, .ok (some 2), .ok (some 2), .ok (some 2)], 2) := by rfl

end Mlio
