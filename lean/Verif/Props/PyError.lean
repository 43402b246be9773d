import Verif.Spec.PyError

/-! # C77: errors in Python -/

namespace Mlio
open Spec

theorem pyStr_of_isText {b : Bytes} {s : String} (h : IsText b s) : pyStr b = some s := by
  unfold pyStr
  have : (⟨b.toArray⟩ : ByteArray) = s.toByteArray := by
    rw [← h]
  rw [this, String.fromUTF8?, dif_pos s.isValidUTF8]
  rfl

theorem pyStr_some {b : Bytes} {s : String} (h : pyStr b = some s) : IsText b s := by
  unfold pyStr String.fromUTF8? at h
  split at h
  · simp only [Option.some.injEq] at h
    subst h
    rfl
  · simp at h

/-- The clause that catches an exception of a class of the library is that of its own class. -/
theorem clause_of_name {c : ErrClass} {t : PyType} (h : pyName c = some t) : catchClauses.find? (fun q => c.isA q.1) = some (c, t) := by
  cases c <;> simp only [pyName, Option.some.injEq, reduceCtorEq] at h <;> subst h <;> decide

theorem translate_tellable {e : Exc} (h : Tellable e) : ∃ p, translate e = .ok p ∧ Tells e p := by
  induction h with
  | mk c w k n t s name msg nested ih =>
    cases n with
    | none =>
      refine ⟨.mk t s (if c = .system then some k else none) none, ?_, .mk c w k t s none none name msg (by simp) (by simp)⟩
      rw [translate, clause_of_name name]
      simp only [pyStr_of_isText msg]
    | some e =>
      obtain ⟨p, hp, ht⟩ := ih e rfl
      refine ⟨.mk t s (if c = .system then some k else none) (some p), ?_, .mk c w k t s (some e) (some p) name msg (by simp) ?_⟩
      · rw [translate, clause_of_name name]
        simp only [pyStr_of_isText msg, hp]
      · intro e' q he hq
        cases he; cases hq
        exact ht

/-- **C77**: an error of the library or of the system whose messages are text is raised in Python as the exception of the same class, with the same message, and
with the nested errors as its causes. -/
theorem C77_raised_partial (e : Exc) (h : Tellable e) : Tells e (pyRaise e) := by
  obtain ⟨p, hp, ht⟩ := translate_tellable h
  rw [pyRaise, hp]
  exact ht

/-- **C77**: a handler for a class in Python catches what a handler for that class would catch in C++. -/
theorem C77_handlers (c d : ErrClass) (s t : PyType) (hc : pyName c = some s) (hd : pyName d = some t) : pyIsA s t = c.isA d := by
  cases c <;> simp only [pyName, Option.some.injEq, reduceCtorEq] at hc <;> subst hc <;>
    cases d <;> simp only [pyName, Option.some.injEq, reduceCtorEq] at hd <;> subst hd <;> decide

theorem isText_append {a b : Bytes} {s t : String} (ha : IsText a s) (hb : IsText b t) : IsText (a ++ b) (s ++ t) := by
  unfold IsText at *
  rw [String.toByteArray_append, ByteArray.data_append, Array.toList_append, ha, hb]

theorem isText_txt (s : String) : IsText (txt s) s := rfl

theorem isText_num (n : Nat) : IsText (num n) (toString n) := rfl

/-- **C77**: what the readers throw if reading a data store fails.  If the id of the store is text, the error of the store, of the stream or of the record is told
by an error of the data reader that has it as its cause. -/
theorem C77_store_errors (id : Bytes) (sid : String) (hid : IsText id sid) (idx : Nat) (e : Exc) (he : Tellable e)
    (hc : e.cls.isA .recordTooLarge ∨ e.cls.isA .corruptRecord ∨ e.cls.isA .stream ∨ e.cls.isA .notSupported ∨ e.cls.isA .system) :
    (pyRaise (coreHandleErrors id idx e)).type = "DataReaderError" ∧
      ∃ q, (pyRaise (coreHandleErrors id idx e)).cause = some q ∧ Tells e q ∧
      Tells (coreHandleErrors id idx e) (pyRaise (coreHandleErrors id idx e)) := by
  have hn : ∃ w s, IsText w s ∧ coreHandleErrors id idx e = .mk .dataReader w 0 (some e) := by
    unfold coreHandleErrors
    split
    · exact ⟨_, _, isText_append (isText_append (isText_append (isText_append (isText_txt _) (isText_num _)) (isText_txt _)) hid) (isText_txt _), rfl⟩
    · split
      · exact ⟨_, _, isText_append (isText_append (isText_append (isText_append (isText_txt _) (isText_num _)) (isText_txt _)) hid) (isText_txt _), rfl⟩
      · split
        · exact ⟨_, _, isText_append (isText_append (isText_txt _) hid) (isText_txt _), rfl⟩
        · split
          · exact ⟨_, _, isText_append (isText_append (isText_txt _) hid) (isText_txt _), rfl⟩
          · split
            · exact ⟨_, _, isText_append (isText_append (isText_txt _) hid) (isText_txt _), rfl⟩
            · simp_all
  obtain ⟨w, s, hs, hw⟩ := hn
  rw [hw]
  have ht : Tellable (.mk .dataReader w 0 (some e)) := .mk _ _ _ _ _ _ rfl hs (fun e' h => by cases h; exact he)
  have hT := C77_raised_partial _ ht
  generalize hp : pyRaise (.mk .dataReader w 0 (some e)) = p at hT ⊢
  have hT' := hT
  cases hT' with
  | mk _ _ _ t s' _ p' name msg none cause =>
    simp only [pyName, Option.some.injEq] at name
    subst name
    refine ⟨rfl, ?_⟩
    cases p' with
    | none => exact absurd (none.mpr rfl) (by simp)
    | some q => exact ⟨q, rfl, cause e q rfl rfl, hT⟩

/-- **C77**: other errors of the record readers and streams are passed on as they are. -/
theorem C77_other_errors (id : Bytes) (idx : Nat) (e : Exc)
    (hc : e.cls = .mlio ∨ e.cls = .record ∨ e.cls = .dataReader ∨ e.cls = .schema ∨ e.cls = .invalidInstance ∨ e.cls = .invalidArgument ∨
      e.cls = .outOfRange ∨ e.cls = .badAlloc) : coreHandleErrors id idx e = e := by
  unfold coreHandleErrors
  rcases hc with h | h | h | h | h | h | h | h <;> rw [h] <;> rfl

/-- **C77**: the same for instances whose data are read late. -/
theorem C77_instance_errors (id : Bytes) (sid : String) (hid : IsText id sid) (e : Exc) (he : Tellable e)
    (hc : e.cls.isA .stream ∨ e.cls.isA .notSupported ∨ e.cls.isA .system) :
    (pyRaise (instanceHandleErrors id e)).type = "DataReaderError" ∧ Tells (instanceHandleErrors id e) (pyRaise (instanceHandleErrors id e)) ∧
      (instanceHandleErrors id e).nested.isSome := by
  have hn : ∃ w s, IsText w s ∧ instanceHandleErrors id e = .mk .dataReader w 0 (some e) := by
    unfold instanceHandleErrors
    split
    · exact ⟨_, _, isText_append (isText_append (isText_txt _) hid) (isText_txt _), rfl⟩
    · split
      · exact ⟨_, _, isText_append (isText_append (isText_txt _) hid) (isText_txt _), rfl⟩
      · split
        · exact ⟨_, _, isText_append (isText_append (isText_txt _) hid) (isText_txt _), rfl⟩
        · simp_all
  obtain ⟨w, s, hs, hw⟩ := hn
  rw [hw]
  have ht : Tellable (.mk .dataReader w 0 (some e)) := .mk _ _ _ _ _ _ rfl hs (fun e' h => by cases h; exact he)
  refine ⟨?_, C77_raised_partial _ ht, rfl⟩
  have hT := C77_raised_partial _ ht
  generalize pyRaise (.mk .dataReader w 0 (some e)) = p at hT ⊢
  cases hT with
  | mk _ _ _ t s' _ p' name msg none cause =>
    simp only [pyName, Option.some.injEq] at name
    subst name
    rfl

/-- **C77**: a header or first row that is not well formed is an error of the schema that has the error of the row as its cause. -/
theorem C77_schema_errors (header : Bool) (id : Bytes) (sid : String) (hid : IsText id sid) (e : Exc) (he : Tellable e)
    (hc : e.cls.isA .corruptRecord) :
    (pyRaise (csvSchemaErrors header id e)).type = "SchemaError" ∧ Tells (csvSchemaErrors header id e) (pyRaise (csvSchemaErrors header id e)) ∧
      (csvSchemaErrors header id e).nested.isSome := by
  have hn : ∃ w s, IsText w s ∧ csvSchemaErrors header id e = .mk .schema w 0 (some e) := by
    unfold csvSchemaErrors
    rw [if_pos hc]
    split
    · exact ⟨_, _, isText_append (isText_append (isText_txt _) hid) (isText_txt _), rfl⟩
    · exact ⟨_, _, isText_append (isText_append (isText_txt _) hid) (isText_txt _), rfl⟩
  obtain ⟨w, s, hs, hw⟩ := hn
  rw [hw]
  have ht : Tellable (.mk .schema w 0 (some e)) := .mk _ _ _ _ _ _ rfl hs (fun e' h => by cases h; exact he)
  refine ⟨?_, C77_raised_partial _ ht, rfl⟩
  have hT := C77_raised_partial _ ht
  generalize pyRaise (.mk .schema w 0 (some e)) = p at hT ⊢
  cases hT with
  | mk _ _ _ t s' _ p' name msg none cause =>
    simp only [pyName, Option.some.injEq] at name
    subst name
    rfl

/-- **C77**: a bad cell is told if the id of the store, the name of the column and the part of the cell that is shown are text. -/
theorem C77_bad_cell (id col value : Bytes) (type sid scol sval : String) (row : Nat) (hid : IsText id sid) (hcol : IsText col scol)
    (hval : IsText (value.take 64) sval) :
    Tells (badCell id row col type value) (pyRaise (badCell id row col type value)) ∧
      Tells (longCell id row col value) (pyRaise (longCell id row col value)) := by
  constructor
  · have hm : ∃ s, IsText (badCell id row col type value).what s :=
      ⟨_, isText_append (isText_append (isText_append (isText_append (isText_append (isText_append (isText_append (isText_append (isText_append
        (isText_append (isText_txt _) hcol) (isText_txt _)) (isText_num _)) (isText_txt _)) hid) (isText_txt _)) (isText_txt _)) (isText_txt _)) hval)
        (isText_txt _)⟩
    obtain ⟨s, hs⟩ := hm
    exact C77_raised_partial _ (.mk _ _ _ _ "InvalidInstanceError" s rfl hs (by simp))
  · have hm : ∃ s, IsText (longCell id row col value).what s :=
      ⟨_, isText_append (isText_append (isText_append (isText_append (isText_append (isText_append (isText_append (isText_append
        (isText_txt _) hcol) (isText_txt _)) (isText_num _)) (isText_txt _)) hid) (isText_txt _)) hval) (isText_txt _)⟩
    obtain ⟨s, hs⟩ := hm
    exact C77_raised_partial _ (.mk _ _ _ _ "InvalidInstanceError" s rfl hs (by simp))

/-- A cell with 63 letters `a` and then `é`, which is text. -/
def longName : String := "aaaaaaaaaaaaaaaaaaaaaaaaaaaaaaaaaaaaaaaaaaaaaaaaaaaaaaaaaaaaaaaé"

/-- **C77** is false of the code: a cell that is text but cannot be parsed as a number is reported as a `UnicodeDecodeError`, if
a character is cut where the message shows only the first 64 bytes. -/
theorem C77_cut_message_violated : ∃ e : Exc, e = badCell (txt "a.csv") 0 (txt "x") "int32" (txt longName) ∧ e.cls = .invalidInstance ∧
    (pyRaise e).type = "UnicodeDecodeError" ∧ pyIsA (pyRaise e).type "MLIOError" = false :=
  ⟨_, rfl, rfl, by decide +kernel, by decide +kernel⟩

/-- **C77** is false of the code: so is a cell that is too long, if `max_field_length` cuts a character.  The row is `é,1`, and the
maximum is one. -/
theorem C77_cut_cell_violated : ∃ t : Tok, Tok.next { maxField := some 1 } (Tok.init (txt "é,1")) = (.ok true, t) ∧ t.truncated = true ∧
    (pyRaise (longCell (txt "a.csv") 0 (txt "x") t.value)).type = "UnicodeDecodeError" :=
  ⟨_, rfl, by decide +kernel, by decide +kernel⟩

/-- **C77** would be false for causes that are neither of the library nor of the system: the cause is raised instead of the error.  (No place of the library that nests
exceptions does so: `C77_store_errors`, `C77_instance_errors` and `C77_schema_errors`.) -/
theorem C77_foreign_cause (w v : Bytes) (s : String) (hw : IsText w s) :
    pyRaise (.mk .dataReader w 0 (some (.mk .invalidArgument v 0 none))) = pyRaise (.mk .invalidArgument v 0 none) := by
  have h1 : translate (.mk .invalidArgument v 0 none) = .error (.cpp (.mk .invalidArgument v 0 none)) := by
    rw [translate]; rfl
  have h2 : translate (.mk .dataReader w 0 (some (.mk .invalidArgument v 0 none))) = .error (.cpp (.mk .invalidArgument v 0 none)) := by
    rw [translate, clause_of_name (c := .dataReader) (t := "DataReaderError") rfl]
    simp only [pyStr_of_isText hw, h1]
  rw [pyRaise, h2, pyRaise, h1]

-- A corrupt header of a record in the store `a`.
example : ((pyRaise (coreHandleErrors (txt "a") 3 (.mk .corruptHeader (txt "no magic number") 0 none))).type,
    (pyRaise (coreHandleErrors (txt "a") 3 (.mk .corruptHeader (txt "no magic number") 0 none))).cause.map (fun q => (q.type, q.msg))) =
    ("DataReaderError", some ("CorruptHeaderError", "no magic number")) := by decide +kernel

-- A file that does not exist.
example : ((pyRaise (coreHandleErrors (txt "a") 0 (.mk .system (txt "No such file") 2 none))).msg,
    (pyRaise (coreHandleErrors (txt "a") 0 (.mk .system (txt "No such file") 2 none))).cause.map (fun q => (q.type, q.msg))) =
    ("A system error occurred while trying to read from the data store 'a'. See nested exception for details.",
      some ("OSError", "No such file")) := by decide +kernel

example : Tellable (.mk .corruptHeader (txt "no magic number") 0 none) := .mk _ _ _ _ _ _ rfl rfl (by simp)

-- Errors of arguments.
example : (pyRaise (.mk .invalidArgument (txt "The batch size must be greater than zero.") 0 none)).type = "ValueError" := by decide +kernel

example : pyIsA "CorruptHeaderError" "RecordError" = true ∧ pyIsA "SchemaError" "RecordError" = false := by decide

end Mlio
