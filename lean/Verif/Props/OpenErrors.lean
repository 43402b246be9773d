import Verif.Spec.OpenErrors
import Verif.Props.PyError

/-! # C92 and C77: data stores that cannot be opened -/

namespace Mlio
open Spec

theorem exc_system {e : Exc} (h : e.cls.isA .system = true) : ∃ w k n, e = .mk .system w k n := by
  obtain ⟨c, w, k, n⟩ := e
  cases c <;> first | exact ⟨w, k, n, rfl⟩ | exact absurd h (by simp only [Exc.cls]; decide)

theorem isText_unique {b : Bytes} {s t : String} (hs : IsText b s) (ht : IsText b t) : s = t := by
  have h : s.toByteArray.data.toList = t.toByteArray.data.toList := hs.trans ht.symm
  refine String.toByteArray_inj.1 ?_
  generalize s.toByteArray = a at h ⊢
  generalize t.toByteArray = b at h ⊢
  cases a; cases b
  exact congrArg _ (Array.toList_inj.1 h)

theorem quoteEnd (s : String) (p : Bytes) (h : txt s = p ++ [39]) (a id b : Bytes) :
    ∃ before after, a ++ txt s ++ id ++ ([39] ++ b) = before ++ [39] ++ id ++ [39] ++ after :=
  ⟨a ++ p, b, by rw [h]; simp [List.append_assoc]⟩

theorem storeText : txt "The data store '" = txt "The data store " ++ [39] := by decide +kernel
theorem inStoreText : txt " in the data store '" = txt " in the data store " ++ [39] := by decide +kernel
theorem fromStoreText : txt "A system error occurred while trying to read from the data store '" =
    txt "A system error occurred while trying to read from the data store " ++ [39] := by decide +kernel
theorem permText : txt "The permission to read the data store '" = txt "The permission to read the data store " ++ [39] := by decide +kernel

/-- **C92**: whatever error a data store, a stream or a record reader reports to the reader of instances, the data reader error names the data store, and has
that error nested in it. -/
theorem C92_named (id : Bytes) (idx : Nat) (e : Exc) (h : OfStore e) :
    (coreHandleErrors id idx e).cls = .dataReader ∧ Names id (coreHandleErrors id idx e) ∧ (coreHandleErrors id idx e).nested = some e := by
  unfold coreHandleErrors
  split
  · refine ⟨rfl, ?_, rfl⟩
    have := quoteEnd _ _ inStoreText (txt "The record #" ++ num idx) id (txt " is too large. See nested exception for details.")
    have e1 : txt "' is too large. See nested exception for details." = [39] ++ txt " is too large. See nested exception for details." := by decide +kernel
    simp only [Names, Exc.what, e1]; exact this
  split
  · refine ⟨rfl, ?_, rfl⟩
    have := quoteEnd _ _ inStoreText (txt "The record #" ++ num idx) id (txt " is corrupt. See nested exception for details.")
    have e1 : txt "' is corrupt. See nested exception for details." = [39] ++ txt " is corrupt. See nested exception for details." := by decide +kernel
    simp only [Names, Exc.what, e1]; exact this
  split
  · refine ⟨rfl, ?_, rfl⟩
    have := quoteEnd _ _ storeText [] id (txt " contains corrupt data. See nested exception for details.")
    have e1 : txt "' contains corrupt data. See nested exception for details." = [39] ++ txt " contains corrupt data. See nested exception for details." := by
      decide +kernel
    simp only [Names, Exc.what, e1]; exact this
  split
  · refine ⟨rfl, ?_, rfl⟩
    have := quoteEnd _ _ storeText [] id (txt " cannot be read. See nested exception for details.")
    have e1 : txt "' cannot be read. See nested exception for details." = [39] ++ txt " cannot be read. See nested exception for details." := by
      decide +kernel
    simp only [Names, Exc.what, e1]; exact this
  split
  · refine ⟨rfl, ?_, rfl⟩
    have := quoteEnd _ _ fromStoreText [] id (txt ". See nested exception for details.")
    have e1 : txt "'. See nested exception for details." = [39] ++ txt ". See nested exception for details." := by decide +kernel
    simp only [Names, Exc.what, e1]; exact this
  · simp only [OfStore] at h
    simp_all

theorem openError_missing {id : Bytes} {e : Exc} (h : IsMissing e) :
    openError id e = .mk .dataReader (txt "The data store '" ++ id ++ txt "' does not exist.") 0 none := by
  obtain ⟨w, n, rfl⟩ := h
  rfl

theorem openError_denied {id : Bytes} {e : Exc} (h : IsDenied e) :
    openError id e = .mk .dataReader (txt "The permission to read the data store '" ++ id ++ txt "' is denied.") 0 none := by
  obtain ⟨w, n, rfl⟩ := h
  rfl

theorem openError_other {id : Bytes} {e : Exc} (h1 : ¬ IsMissing e) (h2 : ¬ IsDenied e) : openError id e = e := by
  unfold openError
  split
  · rename_i hs
    obtain ⟨w, k, n, rfl⟩ := exc_system hs
    rw [if_neg, if_neg]
    · rintro hk; exact h2 ⟨w, n, by rw [← hk]; rfl⟩
    · rintro hk; exact h1 ⟨w, n, by rw [← hk]; rfl⟩
  · rfl

theorem names_missing (id : Bytes) : Names id (.mk .dataReader (txt "The data store '" ++ id ++ txt "' does not exist.") 0 none) := by
  have := quoteEnd _ _ storeText [] id (txt " does not exist.")
  have e1 : txt "' does not exist." = [39] ++ txt " does not exist." := by decide +kernel
  simp only [Names, Exc.what, e1]; exact this

theorem names_denied (id : Bytes) :
    Names id (.mk .dataReader (txt "The permission to read the data store '" ++ id ++ txt "' is denied.") 0 none) := by
  have := quoteEnd _ _ permText [] id (txt " is denied.")
  have e1 : txt "' is denied." = [39] ++ txt " is denied." := by decide +kernel
  simp only [Names, Exc.what, e1]; exact this

/-- **C92**: if a data store with records cannot be opened, the error is a data reader error that names it.  It says that the data store does not exist if that
is what the system says, and that it may not be read if that is what the system says; otherwise the error of the system or of the library is nested in it. -/
theorem C92_open (id : Bytes) (e : Exc) (h : OfStore e) :
    (coreOpenError id e).cls = .dataReader ∧ Names id (coreOpenError id e) ∧
    (IsMissing e → SaysMissing id (coreOpenError id e)) ∧ (IsDenied e → SaysDenied id (coreOpenError id e)) ∧
    (¬ IsMissing e → ¬ IsDenied e → (coreOpenError id e).nested = some e) := by
  unfold coreOpenError
  by_cases h1 : IsMissing e
  · rw [openError_missing h1]
    refine ⟨rfl, names_missing id, fun _ => rfl, fun h2 => ?_, fun h => absurd h1 h⟩
    obtain ⟨w, n, rfl⟩ := h1
    obtain ⟨w', n', h2⟩ := h2
    cases h2
  · by_cases h2 : IsDenied e
    · rw [openError_denied h2]
      exact ⟨rfl, names_denied id, fun h => absurd h h1, fun _ => rfl, fun _ h => absurd h2 h⟩
    · rw [openError_other h1 h2]
      obtain ⟨a, b, c⟩ := C92_named id 0 e h
      exact ⟨a, b, fun h => absurd h h1, fun h => absurd h h2, fun _ _ => c⟩

/-- **C92**: objects and buckets that are not there do not exist, objects without access may not be read, and nothing else is said to be missing or without
permission. -/
theorem C92_s3 (id : Bytes) (f : S3Error) :
    (SaysMissing id (coreOpenError id (s3Exc f)) ↔ f = .resourceNotFound ∨ f = .noSuchBucket ∨ f = .noSuchKey) ∧
    (SaysDenied id (coreOpenError id (s3Exc f)) ↔ f = .accessDenied) := by
  have hd : ∀ a b c d : Bytes, a.take 5 ≠ c.take 5 → 5 ≤ a.length → 5 ≤ c.length → a ++ b ≠ c ++ d := by
    intro a b c d h2 h3 h4 h5
    apply h2
    have := congrArg (List.take 5) h5
    rwa [List.take_append_of_le_length h3, List.take_append_of_le_length h4] at this
  have hsys1 : ∀ x y : Bytes, txt "A system error occurred while trying to read from the data store '" ++ x ≠ txt "The data store '" ++ y :=
    fun x y => hd _ x _ y (by decide +kernel) (by decide +kernel) (by decide +kernel)
  have hsys2 : ∀ x y : Bytes, txt "A system error occurred while trying to read from the data store '" ++ x ≠
      txt "The permission to read the data store '" ++ y :=
    fun x y => hd _ x _ y (by decide +kernel) (by decide +kernel) (by decide +kernel)
  have hperm : ∀ x y : Bytes, txt "The permission to read the data store '" ++ x ≠ txt "The data store '" ++ y :=
    fun x y => hd _ x _ y (by decide +kernel) (by decide +kernel) (by decide +kernel)
  have missing : ∀ w n, coreOpenError id (.mk .system w 2 n) = .mk .dataReader (txt "The data store '" ++ id ++ txt "' does not exist.") 0 none :=
    fun _ _ => rfl
  have denied : ∀ w n, coreOpenError id (.mk .system w 13 n) =
      .mk .dataReader (txt "The permission to read the data store '" ++ id ++ txt "' is denied.") 0 none := fun _ _ => rfl
  have other : ∀ w k n, k ≠ 2 → k ≠ 13 → coreOpenError id (.mk .system w k n) =
      .mk .dataReader (txt "A system error occurred while trying to read from the data store '" ++ id ++ txt "'. See nested exception for details.") 0
        (some (.mk .system w k n)) := by
    intro w k n h1 h2
    have : openError id (.mk .system w k n) = .mk .system w k n := by
      refine openError_other ?_ ?_
      · rintro ⟨_, _, h⟩; cases h; exact h1 rfl
      · rintro ⟨_, _, h⟩; cases h; exact h2 rfl
    rw [coreOpenError, this]
    rfl
  have key : ∀ f k, sysNumber (s3Code f) = k → s3Exc f = .mk .system (txt "The S3 object cannot be accessed.") k none := by
    rintro f k rfl; rfl
  cases f
  case accessDenied =>
    rw [key _ 13 rfl, denied]
    simp only [SaysMissing, SaysDenied, Exc.what, List.append_assoc]
    exact ⟨⟨fun h => absurd h (hperm _ _), by simp⟩, by simp⟩
  case resourceNotFound =>
    rw [key _ 2 rfl, missing]
    simp only [SaysMissing, SaysDenied, Exc.what, List.append_assoc]
    exact ⟨by simp, fun h => absurd h.symm (hperm _ _), by simp⟩
  case noSuchBucket =>
    rw [key _ 2 rfl, missing]
    simp only [SaysMissing, SaysDenied, Exc.what, List.append_assoc]
    exact ⟨by simp, fun h => absurd h.symm (hperm _ _), by simp⟩
  case noSuchKey =>
    rw [key _ 2 rfl, missing]
    simp only [SaysMissing, SaysDenied, Exc.what, List.append_assoc]
    exact ⟨by simp, fun h => absurd h.symm (hperm _ _), by simp⟩
  all_goals
    rw [key _ _ rfl, other _ _ _ (by decide) (by decide)]
    simp only [SaysMissing, SaysDenied, Exc.what, List.append_assoc]
    exact ⟨⟨fun h => absurd h (hsys1 _ _), by simp⟩, ⟨fun h => absurd h (hsys2 _ _), by simp⟩⟩

/-- **C92**: the other errors of S3 are `DataReaderError`s in Python that name the data store and have an `OSError` as cause, with the number that Linux has
for the error. -/
theorem C92_s3_number (id : Bytes) (sid : String) (hid : IsText id sid) (f : S3Error) (k : Int) (h : S3Number f k) :
    Names id (coreOpenError id (s3Exc f)) ∧ (pyRaise (coreOpenError id (s3Exc f))).type = "DataReaderError" ∧
    (pyRaise (coreOpenError id (s3Exc f))).cause = some (.mk "OSError" "The S3 object cannot be accessed." (some k) none) := by
  have hf : s3Exc f = .mk .system (txt "The S3 object cannot be accessed.") k none := by cases h <;> rfl
  have hk : k ≠ 2 ∧ k ≠ 13 := by cases h <;> decide
  have ho : openError id (s3Exc f) = s3Exc f := by
    rw [hf]
    refine openError_other ?_ ?_
    · rintro ⟨_, _, h⟩; cases h; exact hk.1 rfl
    · rintro ⟨_, _, h⟩; cases h; exact hk.2 rfl
  have hn := C92_named id 0 (s3Exc f) (by rw [hf]; simp only [OfStore, Exc.cls]; decide)
  have hc : coreOpenError id (s3Exc f) = .mk .dataReader
      (txt "A system error occurred while trying to read from the data store '" ++ id ++ txt "'. See nested exception for details.") 0
        (some (.mk .system (txt "The S3 object cannot be accessed.") k none)) := by
    rw [coreOpenError, ho, hf]; rfl
  refine ⟨by rw [coreOpenError, ho]; exact hn.2.1, ?_⟩
  have hw := isText_append (isText_append (isText_txt "A system error occurred while trying to read from the data store '") hid)
    (isText_txt "'. See nested exception for details.")
  have ht : Tellable (coreOpenError id (s3Exc f)) := by
    rw [hc]
    refine .mk _ _ _ _ "DataReaderError" _ rfl hw ?_
    rintro e ⟨⟩
    exact .mk _ _ _ _ "OSError" "The S3 object cannot be accessed." rfl rfl (by simp)
  have := C77_raised_partial _ ht
  rw [hc] at this ⊢
  revert this
  generalize pyRaise _ = p
  intro this
  cases this with
  | mk _ _ _ t s' _ q name msg none cause =>
    simp only [pyName, Option.some.injEq] at name
    refine ⟨name.symm, ?_⟩
    cases q with
    | none => exact absurd (none.2 rfl) (by simp)
    | some q =>
      have := cause _ q rfl rfl
      cases this with
      | mk _ _ _ t2 s2 _ q2 name2 msg2 none2 cause2 =>
        simp only [pyName, Option.some.injEq] at name2
        have h2 : s2 = "The S3 object cannot be accessed." := isText_unique msg2 rfl
        have h3 := none2.1 rfl
        subst name2 h2 h3
        rfl

/-- **C92 is false** for data stores that are instances as a whole (images): if such a data store cannot be opened, then unless it is missing or may not be
read the error is that of the system or of the stream as it is; it names no data store. -/
theorem C92_instance_violated (id : Bytes) (e : Exc) (h1 : ¬ IsMissing e) (h2 : ¬ IsDenied e) : instanceOpenError id e = e :=
  openError_other h1 h2

/-- **C77 is false** for such data stores: the error is no `DataReaderError` in Python, but an `OSError`, or whatever it was. -/
theorem C77_instance_open_violated (id : Bytes) (e : Exc) (he : Tellable e) (h1 : ¬ IsMissing e) (h2 : ¬ IsDenied e) :
    Tells e (pyRaise (instanceOpenError id e)) := by
  rw [C92_instance_violated id e h1 h2]
  exact C77_raised_partial e he

/-- **C77 is false** for data stores that are missing or may not be read: the `DataReaderError` has no cause, and the number of the error is lost. -/
theorem C77_cause_violated (id : Bytes) (sid : String) (hid : IsText id sid) (e : Exc) (h : IsMissing e ∨ IsDenied e) :
    (pyRaise (coreOpenError id e)).type = "DataReaderError" ∧ (pyRaise (coreOpenError id e)).cause = none ∧
    (pyRaise (instanceOpenError id e)).type = "DataReaderError" ∧ (pyRaise (instanceOpenError id e)).cause = none := by
  have key : ∀ w s, IsText w s → (pyRaise (.mk .dataReader w 0 none)).type = "DataReaderError" ∧ (pyRaise (.mk .dataReader w 0 none)).cause = none := by
    intro w s hw
    have ht : Tellable (.mk .dataReader w 0 none) := .mk _ _ _ _ "DataReaderError" s rfl hw (by simp)
    have := C77_raised_partial _ ht
    generalize pyRaise (.mk .dataReader w 0 none) = p at this
    cases this with
    | mk _ _ _ t s' _ p name msg none cause =>
      simp only [pyName, Option.some.injEq] at name
      exact ⟨name.symm, none.1 rfl⟩
  rcases h with h | h
  · have hw := isText_append (isText_append (isText_txt "The data store '") hid) (isText_txt "' does not exist.")
    have hc : coreOpenError id e = .mk .dataReader (txt "The data store '" ++ id ++ txt "' does not exist.") 0 none := by
      rw [coreOpenError, openError_missing h]; rfl
    rw [hc, instanceOpenError, openError_missing h]
    exact ⟨(key _ _ hw).1, (key _ _ hw).2, key _ _ hw⟩
  · have hw := isText_append (isText_append (isText_txt "The permission to read the data store '") hid) (isText_txt "' is denied.")
    have hc : coreOpenError id e = .mk .dataReader (txt "The permission to read the data store '" ++ id ++ txt "' is denied.") 0 none := by
      rw [coreOpenError, openError_denied h]; rfl
    rw [hc, instanceOpenError, openError_denied h]
    exact ⟨(key _ _ hw).1, (key _ _ hw).2, key _ _ hw⟩

/-- Errors of S3 as in `C92_s3_number`, with the data store `s3://b/k`. -/
example : S3Number .requestTimeout 110 ∧ S3Number .other 5 ∧ IsText (txt "s3://b/k") "s3://b/k" := ⟨.slow, .other, rfl⟩

/-- Errors as in the theorems: a file that is not there, too many open files (24), and a compression that is not supported. -/
example : OfStore (.mk .system (txt "The file cannot be opened.") 2 none) ∧ IsMissing (.mk .system (txt "The file cannot be opened.") 2 none) ∧
    OfStore (.mk .system (txt "The file cannot be opened.") 24 none) ∧ ¬ IsMissing (.mk .system (txt "The file cannot be opened.") 24 none) ∧
    ¬ IsDenied (.mk .system (txt "The file cannot be opened.") 24 none) ∧ Tellable (.mk .system (txt "The file cannot be opened.") 24 none) ∧
    OfStore (.mk .notSupported (txt "x") 0 none) := by
  refine ⟨by simp only [OfStore, Exc.cls]; decide, ⟨_, _, rfl⟩, by simp only [OfStore, Exc.cls]; decide, ?_, ?_,
    .mk _ _ _ _ "OSError" "The file cannot be opened." rfl rfl (by simp), by simp only [OfStore, Exc.cls]; decide⟩
  · rintro ⟨_, _, h⟩; cases h
  · rintro ⟨_, _, h⟩; cases h

/-- There, the message of the instance does not have the name of the data store `d.png` in it. -/
example : ¬ Names (txt "d.png") (instanceOpenError (txt "d.png") (.mk .system (txt "The file cannot be opened.") 24 none)) := by
  rw [C92_instance_violated _ _ (by rintro ⟨_, _, h⟩; cases h) (by rintro ⟨_, _, h⟩; cases h)]
  rintro ⟨a, b, h⟩
  have : (39 : UInt8) ∈ txt "The file cannot be opened." := by
    have h' : txt "The file cannot be opened." = _ := h
    rw [h']; simp
  exact absurd this (by decide +kernel)

end Mlio
