import Verif.Proofs.RefCount

/-!
# Reference counting: C57
-/

namespace Mlio
open Spec

/-- C57: under every schedule of operations that do not race (and of which none overwrites the handle through which it
reaches another one), no deleted object is ever touched, and after every prefix an object exists if and only if a
handle refers to it.  Missing: assignments such as `p = p->next`, see `C57_next_violated`. -/
theorem C57_alive_partial (n k : Nat) (es : List RcEvent) (h : CarefulRc (rcInit n k) es) :
    ∃ s, (rcInit n k).run es = .ok s ∧ ∀ o, Alive s o ↔ Referenced s o := by
  obtain ⟨s, h1, h2⟩ := run_ok es _ (rcInv_init n k) h
  exact ⟨s, h1, alive_iff s h2⟩

/-- C57: and between operations, it exists if and only if a variable or a member of an existing object points to it, and
its counter is the number of these handles. -/
theorem C57_quiet_partial (n k : Nat) (es : List RcEvent) (h : CarefulRc (rcInit n k) es) (s : RcState)
    (hs : (rcInit n k).run es = .ok s) (hq : Quiet s) (o : Nat) :
    (Alive s o ↔ ∃ l, s.valid l = true ∧ s.get l = some o) ∧
    ∀ ob, s.objs[o]? = some ob → ob.alive = true →
      ob.count = s.vars.count (some o) +
        (s.objs.map fun x => if x.alive then x.fields.count (some o) else 0).sum := by
  obtain ⟨s', h1, h2⟩ := run_ok es _ (rcInv_init n k) h
  rw [hs] at h1
  cases h1
  refine ⟨?_, ?_⟩
  · rw [alive_iff s h2]
    constructor
    · rintro (h' | ⟨th, hth, hd⟩)
      · exact h'
      · rw [hq th hth] at hd; cases hd
    · exact Or.inl
  · intro ob hob ha
    have hc := h2.counts o
    have hp : pend s o = 0 := by
      rcases Nat.lt_or_ge 0 (pend s o) with hx | hx
      · obtain ⟨th, hth, hd⟩ := pend_pos s o hx
        rw [hq th hth] at hd; cases hd
      · omega
    have : cntOf s o = ob.count := by simp [cntOf, hob, ha]
    rw [this, hp] at hc
    simp only [refs] at hc
    have e : (fun x : RcObj => if x.alive then x.fields.count (some o) else 0) = objRefs o := by
      funext x; rfl
    rw [e]
    omega

/-- Two threads: a list of two objects is made, the second variable is moved into the first object's member, the other
thread copies the head while the first one drops its own handle; then everything is dropped, one destructor running
the other. -/
def exRc : List RcEvent :=
  [.start 0 (.make 0 1), .start 1 (.make 1 0), .start 0 (.move (.field 0 0) (.var 1)), .step 0, .step 0,
    .start 1 (.copy (.var 2) (.var 0)), .step 1, .step 1, .start 0 (.drop (.var 0)),
    .start 1 (.copy (.var 1) (.field 2 0)), .step 1, .step 0, .step 1]

instance (s : RcState) (th' : RcThread) : Decidable (RaceFree s th') := by unfold RaceFree; infer_instance
instance (s : RcState) (v : Nat) : Decidable (RaceFreeVar s v) := by unfold RaceFreeVar; infer_instance

/-- A computable form of `CarefulRc`, for examples. -/
def carefulRcB : RcState → List RcEvent → Bool
  | _, [] => true
  | s, e :: es =>
    (match e with
      | .start _ (.make v _) => decide (RaceFreeVar s v)
      | .start _ o => match s.compile o with
        | some th' => decide (RaceFree s th')
        | none => true
      | .step _ => true) &&
    match s.event e with
    | .ok s' => carefulRcB s' es
    | _ => true

theorem carefulRcB_sound : ∀ (es : List RcEvent) (s : RcState), carefulRcB s es = true → CarefulRc s es
  | [], _, _ => trivial
  | e :: es, s, h => by
    simp only [carefulRcB, Bool.and_eq_true] at h
    refine ⟨?_, fun s' hs' => carefulRcB_sound es s' ?_⟩
    · have h1 := h.1
      cases e with
      | step t => trivial
      | start t o =>
        cases o with
        | make v k => simpa using h1
        | _ =>
          intro th' hth'
          simp only [hth', decide_eq_true_eq] at h1
          exact h1
    · have h2 := h.2
      rw [hs'] at h2
      exact h2

example : CarefulRc (rcInit 3 2) exRc := carefulRcB_sound _ _ (by decide)

example : (rcInit 3 2).run exRc =
    .ok ⟨[none, some 1, some 0], [⟨true, 1, [some 1]⟩, ⟨true, 2, []⟩], [⟨[], [], [.var 0]⟩,
      ⟨[], [.var 2, .fld 0 0], [.var 1]⟩]⟩ := by decide

/-- After dropping both, the destructor of the first object drops its member, and both objects are gone. -/
example : CarefulRc (rcInit 3 2) (exRc ++ [.start 0 (.drop (.var 1)), .step 0, .start 1 (.drop (.var 2)), .step 1, .step 1]) ∧
    ∃ s, (rcInit 3 2).run (exRc ++ [.start 0 (.drop (.var 1)), .step 0, .start 1 (.drop (.var 2)), .step 1, .step 1]) = .ok s ∧
      s.objs.map (·.alive) = [false, false] := ⟨carefulRcB_sound _ _ (by decide), _, rfl, by decide⟩

/-- C57 fails for `p = p->next` and `p = std::move(p->next)` where `p` is the only handle to the head: the head is
deleted, and its members with it, before the pointer to the next object is counted. -/
theorem C57_next_violated :
    (∃ es, (rcInit 2 1).run (es ++ [.start 0 (.copy (.var 0) (.field 0 0)), .step 0, .step 0, .step 0]) = .ub "use after free") ∧
    ∃ es, (rcInit 2 1).run (es ++ [.start 0 (.move (.var 0) (.field 0 0)), .step 0, .step 0, .step 0]) = .ub "use after free" := by
  exact ⟨⟨[.start 0 (.make 0 1), .start 0 (.make 1 0), .start 0 (.move (.field 0 0) (.var 1)), .step 0, .step 0], by decide⟩,
    ⟨[.start 0 (.make 0 1), .start 0 (.make 1 0), .start 0 (.move (.field 0 0) (.var 1)), .step 0, .step 0], by decide⟩⟩

end Mlio
