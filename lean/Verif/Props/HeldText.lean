import Verif.Spec.HeldText
import Verif.Props.Utf8Stream

/-! # C46: converters that hold characters back -/

namespace Mlio
open Spec

theorem decodesTo_decodes {c : Codec} {s t : c.σ} {b text : Bytes} (h : DecodesTo c s b text t) : Decodes c s b text .clean := by
  induction h with
  | nil s => exact .clean s
  | char s s' t b out text n hb hs _ ih => exact .char s s' b out text n .clean hb hs ih

theorem textReads_prefix {text : Bytes} {ns : List Nat} {os : List (Res Bytes)} (h : TextReads false text ns os) : readBytes os <+: text := by
  induction h with
  | nil text => exact List.nil_prefix
  | zero text ns os _ ih => simpa [readBytes] using ih
  | more x text n ns os _ _ _ ih =>
    have : readBytes (.ok x :: os) = x ++ readBytes os := by simp [readBytes]
    rw [this]
    exact (List.prefix_append_right_inj x).2 ih
  | done n ns os _ _ ih => simpa [readBytes] using ih
  | fault text n ns os hf => cases hf

/-- C46 fails for encodings whose converter holds characters back until it knows what follows, or is told that the text ends (`iconv` with no input, which writes
`held`): the code never tells it.  Whatever the contents, the reads and their sizes, nothing of what is held back at the end is returned. -/
theorem C46_held_violated (codec : String → Codec) (all : Bytes) (seekable : Bool) (sched : List Nat) (name : String) (hn : name ≠ "UTF-8")
    (hl : name ≠ "8859_1") (hc : LawfulCodec (codec name)) (text held : Bytes) (s : (codec name).σ) (flush : (codec name).σ → Bytes)
    (hd : DecodesTo (codec name) (codec name).init all text s) (hf : flush s = held) (hh : held ≠ []) :
    ∃ t, makeUtf8Stream codec utf8BufferSize all seekable sched (some name) = .ok t ∧
      ∀ ns, readBytes (t.reads ns) <+: text ∧ readBytes (t.reads ns) ≠ text ++ held := by
  obtain ⟨t, h1, h2⟩ := C46_convert_partial codec all seekable sched name (some name) hn hc (.inl ⟨rfl, hl⟩) text .clean (decodesTo_decodes hd)
  refine ⟨t, h1, fun ns => ?_⟩
  have hp := textReads_prefix (h2 ns)
  refine ⟨hp, fun he => ?_⟩
  have := hp.length_le
  rw [he, List.length_append] at this
  exact hh (List.eq_nil_of_length_eq_zero (by omega))

theorem codec1258_lawful : LawfulCodec codec1258 where
  size := by
    intro s b n out s' h
    cases b with
    | nil => cases s <;> simp [codec1258] at h
    | cons b bs =>
      cases s <;> simp only [codec1258] at h
      all_goals
        repeat' split at h
      all_goals cases h
      all_goals exact ⟨by decide, by simp, by first | decide | simp | (split <;> simp)⟩
  done_stable := by
    intro s b n out s' x h
    cases b with
    | nil => cases s <;> simp [codec1258] at h
    | cons b bs => cases s <;> exact h
  invalid_stable := by
    intro s b x h
    cases b with
    | nil => cases s <;> simp [codec1258] at h
    | cons b bs => cases s <;> exact h
  incomplete_short := by
    intro s b h
    cases b with
    | nil => decide
    | cons b bs =>
      cases s <;> simp only [codec1258] at h
      all_goals
        repeat' split at h
      all_goals cases h

/-- The hypotheses are met: in a part of CP1258, a letter after a text at whose end nothing is held back is held back, whatever the text is. -/
theorem held_letter (b : Bytes) (l : UInt8) (hl : isLetter l = true) (text : Bytes) (s t : codec1258.σ) (ht : t = (none : Option UInt8))
    (h : DecodesTo codec1258 s b text t) :
    DecodesTo codec1258 s (b ++ [l]) text (some l : Option UInt8) := by
  induction h with
  | nil s =>
    subst ht
    have : codec1258.step (none : Option UInt8) [l] = .done 1 [] (some l : Option UInt8) := by simp only [codec1258, hl, if_true]
    exact .char (c := codec1258) (none : Option UInt8) (some l : Option UInt8) (some l : Option UInt8) [l] [] [] 1 (by simp) this (.nil _)
  | char s s' t b out text n hb hs _ ih =>
    have hn := codec1258_lawful.size _ _ _ _ _ hs
    refine .char s s' (some l : Option UInt8) (b ++ [l]) out text n (by simp) (codec1258_lawful.done_stable _ _ _ _ _ _ hs) ?_
    rw [List.drop_append_of_le_length hn.2.1]
    exact ih ht

/-- `ba` is read as `b`. -/
example : DecodesTo codec1258 (none : Option UInt8) [98, 97] [98] (some 97 : Option UInt8) ∧ flush1258 (some 97) = [97] ∧ LawfulCodec codec1258 :=
  ⟨.char (c := codec1258) (none : Option UInt8) (some 98 : Option UInt8) (some 97 : Option UInt8) [98, 97] [] [98] 1 (by simp) rfl
    (.char (c := codec1258) (some 98 : Option UInt8) (some 97 : Option UInt8) (some 97 : Option UInt8) [97] [98] [] 1 (by simp) rfl (.nil _)), rfl,
    codec1258_lawful⟩

end Mlio
