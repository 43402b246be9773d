import Verif.Props.SchemaReader
import Verif.Spec.Races

/-! # C72: data races of a parallel reader -/

namespace Mlio
open Spec Machine

section
variable {α ε S ι : Type} {b : Nat} {l : LastHandling} {r : Machine α} {P Q : Nat} {size : α → Nat}
  {dec : Batch α → Except Err (Option ε)} {infer : Infer α S ι}

/-- Only these moves can be made by other threads than the user's, and only while the state is `running`. -/
theorem other_running {w : WState b l r ε S ι} {a : WAct} (ha : a.thread ≠ .user)
    (h : (wstep P Q size dec infer a w).isSome = true) : w.d.p.status = .running := by
  match a with
  | .readSchema => simp [WAct.thread] at ha
  | .dact (.call _) => simp [WAct.thread] at ha
  | .dact .reset => simp [WAct.thread] at ha
  | .dact (.sys a) =>
    simp only [wstep, Option.isSome_map, dstep] at h
    split at h
    · simp at h
    · rw [Option.isSome_map] at h
      cases a <;> simp [WAct.thread] at ha <;>
        simp only [pstep, pProduce, pSend, pDecode, pForward, pQStart, pQStep, pFinish] at h <;>
        (split at h <;> first | (rename_i hx; first | exact hx | exact hx.1) | simp at h)

/-- What the other threads use. -/
theorem other_accesses {w : WState b l r ε S ι} {a : WAct} (ha : a.thread ≠ .user) {x : Access} (hx : x ∈ accesses w a) :
    x = { member := .exception, write := true } ∨ x = { member := .state, write := true, locked := true } ∨
    (x = { member := .reader, write := true } ∧ a = .dact (.sys .produce)) ∨
    (x = { member := .schema, write := false } ∧ ∃ i, a = .dact (.sys (.decode i))) ∨
    (x = { member := .derived, write := false } ∧ ∃ i, a = .dact (.sys (.decode i))) ∨
    x = { member := .numBytes, write := true, atomic := true } ∨
    x = { member := .fillQueue, write := true, locked := true } := by
  match a with
  | .readSchema => simp [WAct.thread] at ha
  | .dact (.call _) => simp [WAct.thread] at ha
  | .dact .reset => simp [WAct.thread] at ha
  | .dact (.sys a) =>
    cases a <;> simp [WAct.thread] at ha <;> simp [accesses] at hx <;>
      first | (rcases hx with hx | hx | hx <;> simp [hx]; done) | (rcases hx with hx | hx <;> simp [hx]; done) | simp [hx]

/-- What the user's thread uses while the others are running. -/
theorem user_accesses {w : WState b l r ε S ι} {a : WAct} (ha : a.thread = .user) (hr : w.d.p.status = .running)
    (he : (wstep P Q size dec infer a w).isSome = true) {x : Access} (hx : x ∈ accesses w a) :
    (x.member = .peeked ∨ x.member = .readQueue ∨ x.member = .state ∨ x = { member := .schema, write := false } ∨
      x = { member := .fillQueue, write := true, locked := true }) ∨
    (w.schema = none ∧ w.d.p.consumer = .idle ∧ x.member ≠ .fillQueue ∧ x.member ≠ .exception ∧ x.member ≠ .numBytes) := by
  have hinf : x ∈ inferAccesses w → w.d.p.consumer = .idle →
      (x.member = .peeked ∨ x.member = .readQueue ∨ x.member = .state ∨ x = { member := .schema, write := false } ∨
        x = { member := .fillQueue, write := true, locked := true }) ∨
      (w.schema = none ∧ w.d.p.consumer = .idle ∧ x.member ≠ .fillQueue ∧ x.member ≠ .exception ∧ x.member ≠ .numBytes) := by
    intro hx hi
    unfold inferAccesses at hx
    cases hs : w.schema with
    | some s => simp [hs] at hx; simp [hx]
    | none =>
      simp [hs] at hx
      rcases hx with hx | hx | hx | hx
      · simp [hx]
      · right; simp [hx, hi]
      · right; simp [hx, hi]
      · right; simp [hx, hi]
  match a with
  | .readSchema =>
    refine hinf hx ?_
    simp only [wstep] at he
    split at he
    · assumption
    · simp at he
  | .dact (.call c) =>
    have hi : w.d.p.consumer = .idle := by
      apply Decidable.byContradiction
      intro hi
      simp [wstep, hi, dCall] at he
    simp only [accesses, List.mem_cons] at hx
    rcases hx with hx | hx
    · simp [hx]
    · split at hx
      · simp at hx
      · simp only [List.mem_append, List.mem_cons] at hx
        rcases hx with hx | hx | hx
        · exact hinf hx hi
        · simp [hx]
        · split at hx
          · simp [hr] at hx; simp [hx]
          · simp at hx
  | .dact .reset =>
    simp [accesses, hr] at hx
    rcases hx with hx | hx | hx <;> simp [hx]
  | .dact (.sys a) =>
    cases a <;> simp [WAct.thread] at ha
    · simp [accesses, hr] at hx
      rcases hx with hx | hx | hx | hx <;> simp [hx]
    · simp [wstep, dstep, PAct.isCall, pstep, pCJoin, hr] at he
    · simp [wstep, dstep, PAct.isCall] at he
    · simp [wstep, dstep, PAct.isCall] at he

/-- **C72**, all members but one: whatever the calls and the schedule, no two threads ever race on the queues, the
exception, the byte count, the schema, the instance reader, the members of the derived class or the peeked
example. -/
theorem C72_no_race_partial (hP : 0 < P) (hm : Sources (batched b l r.base)) (hr : Epochs r)
    (hnn : ∀ mem x, (infer mem (some x)).1 ≠ .ok none) (mem : ι) (w : WState b l r ε S ι)
    (hw : WReachable P Q size dec infer mem w) (m : Member) (hms : m ≠ .state) : ¬ Race P Q size dec infer w m := by
  have main : ∀ a a' : WAct, a.thread = .user → a'.thread ≠ .user → (wstep P Q size dec infer a w).isSome = true →
      (wstep P Q size dec infer a' w).isSome = true → ∀ x ∈ accesses w a, ∀ y ∈ accesses w a', x.member ≠ .state →
      x.member = y.member → (x.write = true ∨ y.write = true) → ¬ (x.locked = true ∧ y.locked = true) → False := by
    intro a a' ha ha' he he' x hx y hy hxs hxy hwr hlock
    have hrun := other_running ha' he'
    rcases user_accesses ha hrun he hx with h | ⟨h1, h2, h3, h4, h5⟩
    · rcases other_accesses ha' hy with rfl | rfl | ⟨rfl, _⟩ | ⟨rfl, _⟩ | ⟨rfl, _⟩ | rfl | rfl <;>
        rcases h with h | h | h | rfl | rfl <;> simp_all
    · obtain ⟨_, _, _, _, hi⟩ := winv hP hm hr hnn hw
      exact hi.calm h1 h2 hrun
  rintro ⟨a, a', hne, he, he', x, hx, y, hy, rfl, hxy, hwr, hlock, hatom⟩
  by_cases ha : a.thread = .user
  · have ha' : a'.thread ≠ .user := fun h => hne (ha.trans h.symm)
    exact main a a' ha ha' he he' x hx y hy hms hxy hwr hlock
  · by_cases ha' : a'.thread = .user
    · exact main a' a ha' ha he' he y hy x hx (fun h => hms (hxy.trans h)) hxy.symm hwr.symm (fun h => hlock h.symm)
    · -- two threads of the pipeline
      match a, a' with
      | .dact (.sys a), .dact (.sys a') =>
        cases a <;> simp [WAct.thread] at ha <;> simp [accesses] at hx <;>
        cases a' <;> simp [WAct.thread] at ha' hne <;> simp [accesses] at hy <;>
        simp_all <;> (rcases hx with rfl | rfl | rfl <;> rcases hy with rfl | rfl | rfl <;> simp_all)
      | .readSchema, _ => simp [WAct.thread] at ha
      | .dact (.call _), _ => simp [WAct.thread] at ha
      | .dact .reset, _ => simp [WAct.thread] at ha
      | _, .readSchema => simp [WAct.thread] at ha'
      | _, .dact (.call _) => simp [WAct.thread] at ha'
      | _, .dact .reset => simp [WAct.thread] at ha'

end

/-- The first example is returned; then the pipeline has done its work and is about to end. -/
def aboutToEnd : List WAct :=
  [.dact (.call .read), .dact (.sys .produce), .dact (.sys .send), .dact (.sys (.decode 0)), .dact (.sys .forward),
    .dact (.sys .qStart), .dact (.sys .qStep), .dact (.sys .cStep),
    .dact (.sys .produce), .dact (.sys .send), .dact (.sys (.decode 0)), .dact (.sys .forward),
    .dact (.sys .qStart), .dact (.sys .qStep), .dact (.sys .produce)]

/-- **C72 is false** for `state_`: with three instances in batches of two, after the first example the user's thread reads `state_`
without the lock, in `read_example` (149) and in `reset` (76), while the background thread may write it (177, 180). -/
theorem C72_state_violated (a : WAct) (ha : a = .dact (.call .read) ∨ a = .dact .reset) :
    ∃ w : WState 2 .none_ threeRows (List (List Nat)) Nat Nat,
      wrun 2 2 List.length (fun b => .ok (some b.instances)) widthOf aboutToEnd (WState.init 2 .none_ threeRows 1) = some w ∧
      Race 2 2 List.length (fun b => .ok (some b.instances)) widthOf w .state := by
  refine ⟨_, rfl, .dact (.sys .finish), a, ?_, rfl, ?_, { member := .state, write := true, locked := true }, ?_,
    { member := .state, write := false }, ?_, rfl, rfl, Or.inl rfl, by simp, by simp⟩
  · rcases ha with rfl | rfl <;> simp [WAct.thread]
  · rcases ha with rfl | rfl <;> rfl
  · simp [accesses]
  · rcases ha with rfl | rfl
    · show _ ∈ [_, _, _, _]
      simp
    · simp [accesses]

-- In that state both threads use the exception, the fill queue and the read queue, without a race.
example : ((wrun (b := 2) (l := .none_) (r := threeRows) 2 2 List.length (fun b => .ok (some b.instances)) widthOf
    aboutToEnd (WState.init 2 .none_ threeRows 1)).map fun w => (w.d.p.status = .running ∧ w.d.p.fill ≠ [] ∧ w.d.p.consumer = .idle : Bool))
    = some true := by rfl

end Mlio
