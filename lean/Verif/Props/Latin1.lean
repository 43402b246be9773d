import Verif.Spec.Latin1
import Verif.Props.HeldText

/-! # C46: Latin-1 -/

namespace Mlio
open Spec

theorem encode8_length_pos (ch : Char) : 0 < (encode8 ch).length := by
  simp only [encode8, String.utf8EncodeChar]
  repeat' split
  all_goals simp

theorem encode8_length_two (ch : Char) (h : 128 ≤ ch.toNat) : 1 < (encode8 ch).length := by
  have : ¬ ch.val.toNat ≤ 0x7f := by show ¬ ch.toNat ≤ 127; omega
  simp only [encode8, String.utf8EncodeChar]
  split
  · contradiction
  · repeat' split
    all_goals simp

theorem encode8_ascii (ch : Char) (h : ch.toNat < 128) : encode8 ch = [UInt8.ofNat ch.toNat] := by
  have : ch.val.toNat ≤ 0x7f := by show ch.toNat ≤ 127; omega
  simp only [encode8, String.utf8EncodeChar]
  rw [if_pos this]
  rfl

theorem latin1_ascii (cs : List Char) (h : ∀ ch ∈ cs, ch.toNat < 128) : latin1 cs = cs.flatMap encode8 := by
  induction cs with
  | nil => rfl
  | cons c cs ih =>
    have hc := encode8_ascii c (h c (by simp))
    have := ih fun ch hm => h ch (by simp [hm])
    simp only [latin1, List.map_cons, List.flatMap_cons] at this ⊢
    rw [hc, ← this]
    rfl

theorem latin1_le (cs : List Char) : (latin1 cs).length ≤ (cs.flatMap encode8).length := by
  induction cs with
  | nil => simp [latin1]
  | cons c cs ih =>
    have := encode8_length_pos c
    simp only [latin1, List.map_cons, List.length_cons, List.flatMap_cons, List.length_append] at ih ⊢
    omega

theorem latin1_lt (cs : List Char) (h : ∃ ch ∈ cs, 128 ≤ ch.toNat) : (latin1 cs).length < (cs.flatMap encode8).length := by
  induction cs with
  | nil => simp at h
  | cons c cs ih =>
    obtain ⟨ch, hm, hc⟩ := h
    have hp := encode8_length_pos c
    have hl := latin1_le cs
    simp only [latin1, List.map_cons, List.length_cons, List.flatMap_cons, List.length_append, List.length_map] at *
    rcases List.mem_cons.1 hm with rfl | hm
    · have := encode8_length_two ch hc
      omega
    · have := ih ⟨ch, hm, hc⟩
      omega

/-- C46, partial: text that is declared as Latin-1 under the name of `text_encoding.cc` 23 is returned in UTF-8 if all its characters are ASCII. -/
theorem C46_latin1_partial (codec : String → Codec) (cs : List Char) (seekable : Bool) (sched : List Nat) (h : ∀ ch ∈ cs, ch.toNat < 128) :
    ∃ t, makeUtf8Stream codec utf8BufferSize (latin1 cs) seekable sched (some "8859_1") = .ok t ∧
      ∀ ns, TextReads false (cs.flatMap encode8) ns (t.reads ns) := by
  rw [← latin1_ascii cs h]
  exact C46_utf8 codec (latin1 cs) seekable sched _ (.inr (.inl rfl))

/-- C46 fails for Latin-1 under that name: if some character is not ASCII, no sequence of reads returns the text in UTF-8, whatever their sizes. -/
theorem C46_latin1_violated (codec : String → Codec) (cs : List Char) (seekable : Bool) (sched : List Nat) (_h8 : ∀ ch ∈ cs, ch.toNat < 256)
    (h : ∃ ch ∈ cs, 128 ≤ ch.toNat) :
    ∃ t, makeUtf8Stream codec utf8BufferSize (latin1 cs) seekable sched (some "8859_1") = .ok t ∧
      ∀ ns, (∀ o ∈ t.reads ns, ∃ x, o = .ok x) ∧ readBytes (t.reads ns) ≠ cs.flatMap encode8 := by
  obtain ⟨t, h1, h2⟩ := C46_utf8 codec (latin1 cs) seekable sched _ (.inr (.inl rfl))
  refine ⟨t, h1, fun ns => ⟨?_, fun he => ?_⟩⟩
  · have key : ∀ {text : Bytes} {ns : List Nat} {os : List (Res Bytes)}, TextReads false text ns os → ∀ o ∈ os, ∃ x, o = .ok x := by
      intro text ns os h
      induction h with
      | nil text => simp
      | zero text ns os _ ih => simpa using ih
      | more x text n ns os _ _ _ ih => simpa using ih
      | done n ns os _ _ ih => simpa using ih
      | fault text n ns os hf => cases hf
    exact key (h2 ns)
  · have := (textReads_prefix (h2 ns)).length_le
    rw [he] at this
    have := latin1_lt cs h
    omega

theorem codecLatin1_lawful : LawfulCodec codecLatin1 where
  size := by
    intro s b n out s' h
    cases b with
    | nil => simp [codecLatin1] at h
    | cons b bs =>
      simp only [codecLatin1] at h
      cases h
      refine ⟨by decide, by simp, ?_⟩
      simp only [encode8, String.utf8EncodeChar]
      repeat' split
      all_goals simp
  done_stable := by
    intro s b n out s' x h
    cases b with
    | nil => simp [codecLatin1] at h
    | cons b bs => exact h
  invalid_stable := by
    intro s b x h
    cases b with
    | nil => simp [codecLatin1] at h
    | cons b bs => exact h
  incomplete_short := by
    intro s b h
    cases b with
    | nil => decide
    | cons b bs => simp [codecLatin1] at h

/-- C46: under any other name that the converter knows, such as `ISO-8859-1`, the same text is converted. -/
theorem C46_latin1_named (codec : String → Codec) (cs : List Char) (seekable : Bool) (sched : List Nat) (name : String) (hn : name ≠ "UTF-8")
    (hl : name ≠ "8859_1") (hc : codec name = codecLatin1) (h8 : ∀ ch ∈ cs, ch.toNat < 256) :
    ∃ t, makeUtf8Stream codec utf8BufferSize (latin1 cs) seekable sched (some name) = .ok t ∧
      ∀ ns, TextReads false (cs.flatMap encode8) ns (t.reads ns) := by
  refine C46_convert_partial codec (latin1 cs) seekable sched name (some name) hn (hc ▸ codecLatin1_lawful) (.inl ⟨rfl, hl⟩) _ .clean ?_
  rw [hc]
  clear hc
  show Decodes codecLatin1 () _ _ _
  induction cs with
  | nil => exact .clean (c := codecLatin1) ()
  | cons c cs ih =>
    have hc : c.toNat < 256 := h8 c (by simp)
    have e : Char.ofNat (UInt8.ofNat c.toNat).toNat = c := by
      have : (UInt8.ofNat c.toNat).toNat = c.toNat := by simp; omega
      rw [this, Char.ofNat_toNat]
    refine .char (c := codecLatin1) () () (latin1 (c :: cs)) (encode8 c) _ 1 .clean (by simp [latin1]) ?_ (ih fun ch hm => h8 ch (by simp [hm]))
    simp only [latin1, List.map_cons, codecLatin1]
    rw [e]

/-- `café`: the byte E9 is returned, and not C3 A9. -/
example : ∃ t, makeUtf8Stream unicodeCodec utf8BufferSize [99, 97, 102, 0xE9] true [] (some "8859_1") = .ok t ∧
    ∀ ns, (∀ o ∈ t.reads ns, ∃ x, o = .ok x) ∧ readBytes (t.reads ns) ≠ [99, 97, 102, 0xC3, 0xA9] :=
  C46_latin1_violated unicodeCodec ['c', 'a', 'f', 'é'] true [] (by decide) ⟨'é', by decide, by decide⟩

/-- `cafe` is returned, and with the other name `café` is. -/
example : (∃ t, makeUtf8Stream unicodeCodec utf8BufferSize [99, 97, 102, 101] true [] (some "8859_1") = .ok t ∧
    ∀ ns, TextReads false [99, 97, 102, 101] ns (t.reads ns)) ∧
    ∃ t, makeUtf8Stream (fun _ => codecLatin1) utf8BufferSize [99, 97, 102, 0xE9] true [] (some "ISO-8859-1") = .ok t ∧
      ∀ ns, TextReads false [99, 97, 102, 0xC3, 0xA9] ns (t.reads ns) :=
  ⟨C46_latin1_partial unicodeCodec ['c', 'a', 'f', 'e'] true [] (by decide),
    C46_latin1_named _ ['c', 'a', 'f', 'é'] true [] "ISO-8859-1" (by decide) (by decide) rfl (by decide)⟩

end Mlio
