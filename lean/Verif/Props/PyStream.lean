import Verif.Spec.PyStream

/-!
# C84: data stores and streams written in Python are used as they are written
-/

namespace Mlio
open Spec

/-- A data store written in Python is opened by its method `open_read`; if that raises, or is missing, it is an exception. -/
theorem C84_open_partial (o : PyObject) :
    (∀ f n, o.method "open_read" = some f → f 0 = .ok n → pyOpenRead o = .value n) ∧
    (∀ f, o.method "open_read" = some f → f 0 = .error () → pyOpenRead o = .error) ∧
    (o.method "open_read" = none → pyOpenRead o = .error) := by
  refine ⟨fun f n h1 h2 => ?_, fun f h1 h2 => ?_, fun h => ?_⟩ <;> simp_all [pyOpenRead, overloadPure, MacroArg.stringized]

/-- A reader uses the stream that `open_read` returns, and ends with an exception if there is one; unless `None` is returned. -/
theorem C84_opens_partial (o : PyObject) :
    (∀ n, methodOutcome o "open_read" = .value n → n ≠ 0 → pyReaderOpens o = .ok (some n)) ∧
    (methodOutcome o "open_read" = .error → pyReaderOpens o = .ok none) := by
  have h : pyOpenRead o = methodOutcome o "open_read" := by
    simp only [pyOpenRead, overloadPure, methodOutcome, MacroArg.stringized]
    cases o.method "open_read" with
    | none => rfl
    | some f => cases hf : f 0 <;> simp [hf]
  unfold pyReaderOpens
  rw [h]
  refine ⟨fun n hn h0 => ?_, fun he => by rw [he]⟩
  rw [hn]
  match n, h0 with
  | n + 1, _ => rfl

/-- C84 fails for a data store whose `open_read` returns `None`, as a Python function without `return` does: there is no exception, but a null pointer is used. -/
theorem C84_no_stream_violated (o : PyObject) (f : Nat → Except Unit Nat) (hf : o.method "open_read" = some f) (h0 : f 0 = .ok 0) :
    pyReaderOpens o = .ub "null pointer" := by
  simp [pyReaderOpens, pyOpenRead, overloadPure, MacroArg.stringized, hf, h0]

example : ∃ o : PyObject, ∃ f, o.method "open_read" = some f ∧ f 0 = .ok 0 := ⟨⟨fun _ => some fun _ => .ok 0⟩, _, rfl, rfl⟩

/-- A class with the methods of a stream, whose answers are all one. -/
def exPyStream : PyObject where
  method name :=
    if name ∈ ["read", "seek", "close", "size", "position", "seekable", "closed", "open_read"] then some fun _ => .ok 1 else none

example : ∃ f, exPyStream.method "open_read" = some f ∧ f 0 = .ok 1 := ⟨fun _ => .ok 1, by simp [exPyStream], rfl⟩

example : pyReaderOpens exPyStream = .ok (some 1) := by simp [pyReaderOpens, pyOpenRead, overloadPure, MacroArg.stringized, exPyStream]

theorem quoted_missing (o : PyObject) (h : PythonNames o) (text : String) : o.method (MacroArg.quoted text).stringized = none := by
  cases hm : o.method (MacroArg.quoted text).stringized with
  | none => rfl
  | some f => exact absurd (by simp [MacroArg.stringized]) (h _ f hm)

/-- C84 fails for streams: whatever class is written in Python, none of its methods is ever called.  `read` into a buffer calls the
interpreter without its lock; `read` of a number of bytes says that the stream is at its end; `seek`, `close`, `seekable` and `closed`
end the process; `size` and `position` are errors. -/
theorem C84_stream_violated (o : PyObject) (h : PythonNames o) (c : PyStreamCall) : pyStreamCall o c =
    match c with
    | .readInto _ => .noLock
    | .read _ => .value 0
    | .seek _ | .close | .seekable | .closed => .terminated
    | .size | .position => .error := by
  cases c <;> simp only [pyStreamCall, overloadPure, quoted_missing o h, orTerminate]

/-- So no call gives what the class says, but for a class whose `read` has nothing to give. -/
theorem C84_obeys_violated (o : PyObject) (h : PythonNames o) (c : PyStreamCall) (f : Nat → Except Unit Nat) (n : Nat)
    (hf : o.method (pyMethod c).1 = some f) (hn : f (pyMethod c).2 = .ok n) (hpos : 0 < n) : ¬ Obeys o c := by
  intro ho
  have h1 := ho f n hf hn
  rw [C84_stream_violated o h c] at h1
  cases c <;> simp at h1
  omega

example : PythonNames exPyStream ∧ ∃ f, exPyStream.method (pyMethod .seekable).1 = some f ∧ f (pyMethod .seekable).2 = .ok 1 := by
  refine ⟨?_, fun _ => .ok 1, by simp [exPyStream, pyMethod], rfl⟩
  intro name f hf
  simp only [exPyStream] at hf
  split at hf
  · next hm =>
    simp only [List.mem_cons, List.not_mem_nil, or_false] at hm
    rcases hm with rfl | rfl | rfl | rfl | rfl | rfl | rfl | rfl <;> decide
  · cases hf

/-- C84 for readers (part): a call of a reader written in Python ends as its method does, unless that is an exception of `reset` or `num_bytes_read`. -/
theorem C84_reader_partial (o : PyObject) (c : PyReaderCall) (h : methodOutcome o (pyReaderMethod c) = .error → c ≠ .reset ∧ c ≠ .numBytesRead) :
    pyReaderCall o c = methodOutcome o (pyReaderMethod c) := by
  have hp : ∀ name, overloadPure o (.ident name) 0 = methodOutcome o name := by
    intro name
    simp only [overloadPure, methodOutcome, MacroArg.stringized]
    split
    · simp_all
    · rename_i f hf
      simp only [hf]
      split <;> simp_all
  have ht : ∀ r, r ≠ .error → orTerminate r = r := by
    intro r hr
    cases r <;> simp_all [orTerminate]
  cases c with
  | readExample => exact hp _
  | peekExample => exact hp _
  | readSchema => exact hp _
  | reset =>
    have hne : methodOutcome o "reset" ≠ .error := fun hc => (h hc).1 rfl
    simp only [pyReaderCall, pyReaderMethod, hp, ht _ hne]
  | numBytesRead =>
    have hne : methodOutcome o "num_bytes_read" ≠ .error := fun hc => (h hc).2 rfl
    simp only [pyReaderCall, pyReaderMethod, hp, ht _ hne]

/-- C84 fails for readers whose `reset` or `num_bytes_read` raises or is missing (or is a property, as that of the library's own readers): the process ends.  The same
for the `id` of a data store. -/
theorem C84_reader_violated (o : PyObject) :
    (methodOutcome o "reset" = .error → pyReaderCall o .reset = .terminated) ∧
    (methodOutcome o "num_bytes_read" = .error → pyReaderCall o .numBytesRead = .terminated) ∧
    (methodOutcome o "id" = .error → pyStoreId o = .terminated) := by
  have hp : ∀ name, methodOutcome o name = .error → overloadPure o (.ident name) 0 = .error := by
    intro name h
    simp only [overloadPure, methodOutcome, MacroArg.stringized] at h ⊢
    cases hm : o.method name with
    | none => rfl
    | some f =>
      simp only [hm] at h ⊢
      cases hf : f 0 with
      | ok n => simp [hf] at h
      | error u => rfl
  refine ⟨fun h => ?_, fun h => ?_, fun h => ?_⟩ <;> simp only [pyReaderCall, pyStoreId, hp _ h, orTerminate]

/-- A reader with `num_bytes_read` as a property. -/
def exPyReader : PyObject where
  method name := if name = "read_example" then some fun _ => .ok 7 else if name = "reset" then some fun _ => .error () else none

example : pyReaderCall exPyReader .readExample = .value 7 ∧ pyReaderCall exPyReader .peekExample = .error ∧ pyReaderCall exPyReader .reset = .terminated ∧
    pyReaderCall exPyReader .numBytesRead = .terminated ∧ (methodOutcome exPyReader (pyReaderMethod .readExample) = .error → PyReaderCall.readExample ≠ .reset ∧ PyReaderCall.readExample ≠ .numBytesRead) := by
  decide

end Mlio
