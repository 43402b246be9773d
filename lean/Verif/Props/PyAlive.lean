import Verif.Proofs.PyAlive

/-!
# C109: data stores written in Python

A program makes data stores (classes of its own derived from `DataStore`, or those of the library), puts them into lists, parameters and readers, drops its variables, and
opens the data stores itself or through a reader.  Meant is `Spec.Env`: the data store that was given to the reader is opened.  The code does so unless
the data store is written in Python and the program has not held it all the time since it was made, in a variable or a list in a variable: parameters and readers do not hold the Python part.
-/

namespace Mlio
open Spec

/-- The start of a program with `n` variables. -/
def StoreProg.start (n : Nat) : StoreProg := ⟨List.replicate n none, []⟩

theorem Sim.start (n : Nat) : Sim n [] (StoreProg.start n) := by
  have hg : ∀ x, (StoreProg.start n).get x = none := by
    intro x
    simp only [StoreProg.start, StoreProg.get, List.getElem?_replicate]
    split <;> rfl
  refine ⟨by simp [Env.run, Env.start, StoreProg.start], rfl, rfl, ?_, ?_, ?_⟩
  · rintro i ⟨x, o, h, _⟩; rw [hg] at h; cases h
  · rintro i ⟨x, o, h, _⟩; rw [hg] at h; cases h
  · intro x is h; rw [hg] at h; simp at h

theorem Sim.run_from {n : Nat} (t : List StoreStep) : ∀ {q s}, Sim n q s → Sim n (q ++ t) (s.run t).2 := by
  induction t with
  | nil => intro q s h; simpa [StoreProg.run] using h
  | cons a t ih =>
    intro q s h
    have := ih (h.step a).2
    simpa [StoreProg.run] using this

theorem Sim.all (n : Nat) (q : List StoreStep) : Sim n q ((StoreProg.start n).run q).2 := Sim.run_from q (Sim.start n)

/-- **C109** (exactly when).  After any program, if opening is meant to open the data store `i`, it does so, unless `i` is written in Python and was not always held:
then it ends with the exception "Tried to call pure virtual function".  All other steps end as they are meant to. -/
theorem C109_exact (n : Nat) (q : List StoreStep) (a : StoreStep) :
    (∀ i, (((Env.start n).run q).2.step a).1 = .opened i → WrittenInPython q i → ¬ AlwaysHeld n q i →
      (((StoreProg.start n).run q).2.step a).1 = .pureVirtual) ∧
    (∀ i, (((Env.start n).run q).2.step a).1 = .opened i → (WrittenInPython q i → AlwaysHeld n q i) →
      (((StoreProg.start n).run q).2.step a).1 = .opened i) ∧
    ((∀ i, (((Env.start n).run q).2.step a).1 ≠ .opened i) →
      (((StoreProg.start n).run q).2.step a).1 = (((Env.start n).run q).2.step a).1) := by
  have h := ((Sim.all n q).step a).1
  exact ⟨fun i e h1 h2 => (h.1 i e).1 ⟨h1, h2⟩, fun i e h1 => (h.1 i e).2 (fun hc => hc.2 (h1 hc.1)), h.2⟩

/-- **C109** (partial: of data stores written in Python, those that are held).  A program that holds each data store written in Python, from when it was made up to each time it is opened,
does what it is meant to: each step ends as meant. -/
theorem C109_partial (n : Nat) (prog : List StoreStep)
    (h : ∀ q a i, (q ++ [a]) <+: prog → (((Env.start n).run q).2.step a).1 = .opened i → WrittenInPython q i → AlwaysHeld n q i) :
    ((StoreProg.start n).run prog).1 = ((Env.start n).run prog).1 := by
  suffices ∀ t q, (q ++ t) = prog → (((StoreProg.start n).run q).2.run t).1 = (((Env.start n).run q).2.run t).1 from
    this prog [] rfl
  intro t
  induction t with
  | nil => intros; rfl
  | cons a t ih =>
    intro q hq
    have hs : (((StoreProg.start n).run q).2.step a).1 = (((Env.start n).run q).2.step a).1 := by
      have he := C109_exact n q a
      cases ho : (((Env.start n).run q).2.step a).1 with
      | opened i => exact he.2.1 i ho (h q a i ⟨t, by simp [hq]⟩ ho)
      | _ => rw [← ho]; exact he.2.2 (by rw [ho]; simp)
    have hr := ih (q ++ [a]) (by simp [hq])
    rw [(StoreProg.run_append _ q [a]).2, (Env.run_append _ q [a]).2] at hr
    simp only [StoreProg.run, Env.run] at hr ⊢
    rw [hs, hr]

/-- **C109** for the data stores of the library (files, memory, pipes, S3 objects): a program without data stores of its own does what it is meant to, whatever it holds. -/
theorem C109_builtin (n : Nat) (prog : List StoreStep) (h : ∀ x, .make x true ∉ prog) :
    ((StoreProg.start n).run prog).1 = ((Env.start n).run prog).1 := by
  refine C109_partial n prog (fun q a i hp _ hw => ?_)
  exfalso
  obtain ⟨b, hb, he⟩ := List.mem_filterMap.1 (List.mem_of_getElem? hw)
  have hm : b ∈ prog := (List.prefix_append q [a]).trans hp |>.subset hb
  cases b <;> simp at he
  subst he
  exact h _ hm

/-- A program that makes two data stores, one of which is written in Python, and holds it: `s = MyStore(); f = File(…); l = [s, f]; p = DataReaderParams(l); del s; r = Reader(p); …`. -/
def heldProg : List StoreStep :=
  [.make 0 true, .make 1 false, .list 2 [0, 1], .params 3 2, .del 0, .reader 4 3, .openNth 4 0, .del 1, .openNth 4 1]

-- It opens both data stores.
example : ((StoreProg.start 5).run heldProg).1 = [.done, .done, .done, .done, .done, .done, .opened 0, .done, .opened 1] := by decide +kernel

theorem heldProg_held : ∀ q a i, (q ++ [a]) <+: heldProg → (((Env.start 5).run q).2.step a).1 = .opened i →
    WrittenInPython q i → AlwaysHeld 5 q i := by
  have key : ∀ k, 1 ≤ k → k ≤ 9 → ((Env.start 5).run (heldProg.take k)).2.Holds 0 := by
    intro k h1 h2
    by_cases h3 : k < 3
    · refine ⟨0, .inl ?_⟩
      obtain rfl | rfl : k = 1 ∨ k = 2 := by omega
      all_goals decide +kernel
    · refine ⟨2, .inr ⟨[0, 1], ?_, by simp⟩⟩
      obtain rfl | rfl | rfl | rfl | rfl | rfl | rfl : k = 3 ∨ k = 4 ∨ k = 5 ∨ k = 6 ∨ k = 7 ∨ k = 8 ∨ k = 9 := by omega
      all_goals decide +kernel
  intro q a i hp _ hw p hpq hlt
  have hp' : p <+: heldProg := hpq.trans ((List.prefix_append q [a]).trans hp)
  have hi : i = 0 := by
    have hq : q <+: heldProg := (List.prefix_append q [a]).trans hp
    obtain ⟨t, ht⟩ := hq
    have h2 : WrittenInPython heldProg i := by
      unfold WrittenInPython at hw ⊢
      rw [← ht, List.filterMap_append, List.getElem?_append_left (List.getElem?_eq_some_iff.1 hw).1]
      exact hw
    have h3 : ([true, false] : List Bool)[i]? = some true := h2
    match i, h3 with
    | 0, _ => rfl
    | 1, h => simp at h
    | i + 2, h => simp at h
  subst hi
  have hk : p = heldProg.take p.length := List.prefix_iff_eq_take.1 hp'
  have hl : p.length ≤ 9 := hp'.length_le
  have h0 : p.length ≠ 0 := by
    intro h0
    rw [List.length_eq_zero_iff.1 h0] at hlt
    simp [Env.run, Env.start] at hlt
  rw [hk]
  exact key _ (by omega) hl

-- It meets the hypothesis of `C109_partial`.
example : ((StoreProg.start 5).run heldProg).1 = ((Env.start 5).run heldProg).1 := C109_partial 5 heldProg heldProg_held

-- A program with data stores of the library only, which keeps the reader only: the hypothesis of `C109_builtin`, and what it does.
example : (∀ x, StoreStep.make x true ∉ [.make 0 false, .list 0 [0], .params 0 0, .reader 0 0, .openNth 0 0]) ∧
    ((StoreProg.start 1).run [.make 0 false, .list 0 [0], .params 0 0, .reader 0 0, .openNth 0 0]).1 =
      [.done, .done, .done, .done, .opened 0] := by
  refine ⟨by intro x; simp, by decide +kernel⟩

/-- **C109** is violated: `params = DataReaderParams(dataset=[MyStore()]); reader = Reader(params)`, and nothing but the reader is kept.  The reader is meant to open the data store and fails
("Tried to call pure virtual function"). -/
theorem C109_violated :
    ((Env.start 1).run [.make 0 true, .list 0 [0], .params 0 0, .reader 0 0, .openNth 0 0]).1 = [.done, .done, .done, .done, .opened 0] ∧
    ((StoreProg.start 1).run [.make 0 true, .list 0 [0], .params 0 0, .reader 0 0, .openNth 0 0]).1 = [.done, .done, .done, .done, .pureVirtual] := by
  constructor <;> decide +kernel

/-- **C109** is violated even if the parameters are kept and the dataset is read back from them later; holding it again does not help. -/
theorem C109_read_back_violated :
    let prog : List StoreStep := [.make 0 true, .list 0 [0], .params 1 0, .del 0, .dataset 0 1, .reader 2 1, .openNth 2 0]
    ((Env.start 3).run prog).1 = [.done, .done, .done, .done, .done, .done, .opened 0] ∧
    ((StoreProg.start 3).run prog).1 = [.done, .done, .done, .done, .done, .done, .pureVirtual] := by
  constructor <;> decide +kernel

end Mlio
