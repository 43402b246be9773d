import Verif.Proofs.Utf8Stream

/-!
# UTF-8 conversion of streams: C46
-/

namespace Mlio
open Spec

/-- The size of the buffer, `utf8_input_stream.cc` 116. -/
def utf8BufferSize : Nat := 0x2000000

/-- C46: a stream whose contents are declared to be UTF-8 (or Latin-1, which is not converted), or which carries no byte
order mark or that of UTF-8, is read unchanged, byte by byte, for every pattern of read sizes and of short reads, be
it seekable or not. -/
theorem C46_utf8 (codec : String → Codec) (all : Bytes) (seekable : Bool) (sched : List Nat) (encoding : Option String)
    (h : encoding = some "UTF-8" ∨ encoding = some "8859_1" ∨
      (encoding = none ∧ ∀ name, HasMark all name → name = "UTF-8")) :
    ∃ t, makeUtf8Stream codec utf8BufferSize all seekable sched encoding = .ok t ∧
      ∀ ns, TextReads false all ns (t.reads ns) := by
  rcases h with rfl | rfl | ⟨rfl, h⟩
  · exact ⟨.same ⟨all, sched⟩, rfl, fun ns => same_reads codec ns ⟨all, sched⟩⟩
  · exact ⟨.same ⟨all, sched⟩, rfl, fun ns => same_reads codec ns ⟨all, sched⟩⟩
  · obtain ⟨s', h1, h2⟩ := fillBuffer_take all sched 4
    have wrap : ∀ ns, TextReads false all ns
        ((wrapUtf8 codec utf8BufferSize all seekable s' (all.take 4) encUtf8).reads ns) := by
      intro ns
      unfold wrapUtf8
      cases seekable with
      | true =>
        exact forwarded_reads codec encUtf8 ns (Utf8Stream.new (codec encUtf8) utf8BufferSize { s' with data := all } encUtf8) rfl
      | false =>
        have := forwarded_reads codec encUtf8 ns
          ((Utf8Stream.new (codec encUtf8) utf8BufferSize s' encUtf8).setPreamble (all.take 4)) rfl
        have e : ((Utf8Stream.new (codec encUtf8) utf8BufferSize s' encUtf8).setPreamble (all.take 4)).rest ++
            ((Utf8Stream.new (codec encUtf8) utf8BufferSize s' encUtf8).setPreamble (all.take 4)).inner.data = all := by
          show all.take 4 ++ s'.data = all
          rw [h2, List.take_append_drop]
        rw [e] at this
        exact this
    simp only [makeUtf8Stream, h1]
    rcases hb : inferBom (all.take 4) with _ | name
    · cases seekable with
      | true => exact ⟨_, rfl, fun ns => same_reads codec ns { s' with data := all }⟩
      | false => exact ⟨_, rfl, wrap⟩
    · have := h name ((inferBom_iff all name).1 hb)
      subst this
      exact ⟨_, rfl, wrap⟩

/-- C46: if no encoding is declared, the text is converted from the encoding of its byte order mark, and if there is none,
it is not converted. -/
theorem C46_detect (codec : String → Codec) (all : Bytes) (seekable : Bool) (sched : List Nat) :
    ∃ t, makeUtf8Stream codec utf8BufferSize all seekable sched none = .ok t ∧
      (∀ name, HasMark all name ↔ ∃ u, t = .wrapped name u ∧ (name = "UTF-8" → bomUtf8 <+: all)) := by
  obtain ⟨s', h1, h2⟩ := fillBuffer_take all sched 4
  simp only [makeUtf8Stream, h1]
  have wr : ∀ n, ∃ u, wrapUtf8 codec utf8BufferSize all seekable s' (all.take 4) n = .wrapped n u := by
    intro n; unfold wrapUtf8; cases seekable
    · exact ⟨_, rfl⟩
    · exact ⟨_, rfl⟩
  have mark8 : HasMark all "UTF-8" → bomUtf8 <+: all := by
    intro h
    generalize hn : "UTF-8" = n at h
    cases h with
    | utf8 h => exact h
    | _ => exact absurd hn (by decide)
  rcases hb : inferBom (all.take 4) with _ | name
  · have no : ∀ n, ¬ HasMark all n := by
      intro n hm
      rw [(inferBom_iff all n).2 hm] at hb
      cases hb
    cases seekable with
    | true =>
      refine ⟨_, rfl, fun n => ⟨fun h => absurd h (no n), ?_⟩⟩
      rintro ⟨u, hu, _⟩
      cases hu
    | false =>
      refine ⟨_, rfl, fun n => ⟨fun h => absurd h (no n), ?_⟩⟩
      rintro ⟨u, hu, h8⟩
      obtain ⟨u', hu'⟩ := wr encUtf8
      rw [hu'] at hu
      cases hu
      exact absurd (HasMark.utf8 all (h8 rfl)) (no _)
  · have hm := (inferBom_iff all name).1 hb
    obtain ⟨u', hu'⟩ := wr name
    refine ⟨_, rfl, fun n => ⟨fun h => ?_, ?_⟩⟩
    · have := (inferBom_iff all n).2 h
      rw [hb] at this
      cases this
      exact ⟨u', hu', fun e => mark8 (e ▸ h)⟩
    · rintro ⟨u, hu, _⟩
      rw [hu'] at hu
      cases hu
      exact hm

/-- C46: text in another encoding, declared or detected, is read in UTF-8, for every converter, contents, pattern of read
sizes and of short reads; faulty text is never read as if it ended there, and text that is not faulty is never
rejected.  Missing: a detected encoding, a stream that cannot seek, and at most four bytes in all, see
`C46_short_violated`; and what a converter holds back at the end of the text, see `C46_held_violated`. -/
theorem C46_convert_partial (codec : String → Codec) (all : Bytes) (seekable : Bool) (sched : List Nat) (name : String)
    (encoding : Option String) (hn : name ≠ "UTF-8") (hc : LawfulCodec (codec name))
    (h : (encoding = some name ∧ name ≠ "8859_1") ∨
      (encoding = none ∧ HasMark all name ∧ (seekable = true ∨ 4 < all.length)))
    (text : Bytes) (e : TextEnd) (hd : Decodes (codec name) (codec name).init all text e) :
    ∃ t, makeUtf8Stream codec utf8BufferSize all seekable sched encoding = .ok t ∧
      ∀ ns, TextReads (e != .clean) text ns (t.reads ns) := by
  rcases h with ⟨rfl, hl⟩ | ⟨rfl, hm, hs⟩
  · have h1 : (name == encUtf8 || name == encLatin1) = false := by
      simp only [Bool.or_eq_false_iff, beq_eq_false_iff_ne]
      exact ⟨hn, hl⟩
    simp only [makeUtf8Stream, h1, Bool.false_eq_true, if_false]
    exact ⟨_, rfl, wrap_reads codec utf8BufferSize (by decide) all seekable ⟨all, sched⟩ [] name hn hc (by simp) rfl
      (Or.inr (Or.inl rfl)) text e hd⟩
  · obtain ⟨s', h1, h2⟩ := fillBuffer_take all sched 4
    have hb := (inferBom_iff all name).2 hm
    simp only [makeUtf8Stream, h1, hb]
    refine ⟨_, rfl, wrap_reads codec utf8BufferSize (by decide) all seekable s' (all.take 4) name hn hc
      (by rw [List.length_take]; omega) (by rw [h2, List.take_append_drop]) ?_ text e hd⟩
    rcases hs with hs | hs
    · exact Or.inl hs
    · refine Or.inr (Or.inr ?_)
      rw [h2]
      intro hz
      have := congrArg List.length hz
      rw [List.length_drop, List.length_nil] at this
      omega

/-- The name of the encoding. -/
def unicodeName (be wide : Bool) : String :=
  if wide then (if be then "UTF-32BE" else "UTF-32LE") else (if be then "UTF-16BE" else "UTF-16LE")

theorem unicode_hasMark (cs : List Char) (be wide : Bool)
    (h0 : wide = false → be = false → cs.head? ≠ some (Char.ofNat 0)) :
    HasMark ((Char.ofNat 0xFEFF :: cs).flatMap (if wide then encode32 be else encode16 be)) (unicodeName be wide) := by
  cases wide with
  | true =>
    simp only [if_true]
    cases be
    · exact .utf32le _ ⟨cs.flatMap (encode32 false), rfl⟩
    · exact .utf32be _ ⟨cs.flatMap (encode32 true), rfl⟩
  | false =>
    simp only [Bool.false_eq_true, if_false]
    cases be
    · refine .utf16le _ ⟨cs.flatMap (encode16 false), rfl⟩ ?_
      rintro ⟨t, ht⟩
      rcases cs with _ | ⟨d, ds⟩
      · have := congrArg List.length ht
        simp [bomUtf32le, encode16, unit16] at this
      · have hd : d ≠ Char.ofNat 0 := fun e => h0 rfl rfl (by rw [e]; rfl)
        simp only [List.flatMap_cons] at ht
        have e1 : encode16 false (Char.ofNat 0xFEFF) = [0xFF, 0xFE] := rfl
        rw [e1] at ht
        simp only [bomUtf32le, List.cons_append, List.nil_append, List.cons.injEq, true_and] at ht
        have hv := char_valid d
        have hnz : d.toNat ≠ 0 := by
          intro hz
          exact hd (by rw [← hz, char_ofNat])
        have key : ∀ v r, v ≠ 0 → v < 0x10000 → (0 :: 0 :: t : Bytes) ≠ unit16 false v ++ r := by
          intro v r hv0 hv1 he
          obtain ⟨x, y, g1, g2⟩ := unit16_step false v hv1 r
          rw [g1] at he
          simp only [List.cons.injEq] at he
          rw [← he.1, ← he.2.1] at g2
          simp [value16] at g2
          omega
        unfold encode16 at ht
        split at ht
        · exact key _ _ hnz (by omega) ht
        · rw [List.append_assoc] at ht
          exact key _ _ (by omega) (by omega) ht
    · exact .utf16be _ ⟨cs.flatMap (encode16 true), rfl⟩

/-- C46: in particular, every text in UTF-16 or UTF-32 with a byte order mark is detected and read as what it is in
UTF-8, mark included. (In UTF-16, little endian, it must not start with the character zero: that looks like UTF-32.) -/
theorem C46_unicode_partial (cs : List Char) (seekable : Bool) (sched : List Nat) (be wide : Bool)
    (hs : seekable = true ∨
      4 < ((Char.ofNat 0xFEFF :: cs).flatMap (if wide then encode32 be else encode16 be)).length)
    (h0 : wide = false → be = false → cs.head? ≠ some (Char.ofNat 0)) :
    ∃ t, makeUtf8Stream unicodeCodec utf8BufferSize
        ((Char.ofNat 0xFEFF :: cs).flatMap (if wide then encode32 be else encode16 be)) seekable sched none = .ok t ∧
      ∀ ns, TextReads false ((Char.ofNat 0xFEFF :: cs).flatMap encode8) ns (t.reads ns) := by
  refine C46_convert_partial unicodeCodec _ seekable sched (unicodeName be wide) none
    (by cases be <;> cases wide <;> decide) ?_ (Or.inr ⟨rfl, unicode_hasMark cs be wide h0, hs⟩) _ .clean ?_
  · cases be <;> cases wide
    · exact codec16_lawful _
    · exact codec32_lawful _
    · exact codec16_lawful _
    · exact codec32_lawful _
  · cases be <;> cases wide
    · exact decodes16_all false _
    · exact decodes32_all false _
    · exact decodes16_all true _
    · exact decodes32_all true _

/-- `a€😀` in UTF-16, big endian, from a stream that cannot seek and gives one byte at a time; read in pieces of 1, 5, 2
and 3 bytes. -/
example : ∃ t, makeUtf8Stream unicodeCodec utf8BufferSize
      ((Char.ofNat 0xFEFF :: ['a', '€', '😀']).flatMap (if false then encode32 true else encode16 true)) false [1, 1, 1, 1, 1]
      none = .ok t ∧
    ∀ ns, TextReads false [0xEF, 0xBB, 0xBF, 0x61, 0xE2, 0x82, 0xAC, 0xF0, 0x9F, 0x98, 0x80] ns (t.reads ns) := by
  have := C46_unicode_partial ['a', '€', '😀'] false [1, 1, 1, 1, 1] true false (Or.inr (by decide)) (by simp)
  exact this

example : LawfulCodec (unicodeCodec "UTF-16LE") := codec16_lawful false

example : inferBom [0xFF, 0xFE, 0x41, 0x00] = some "UTF-16LE" ∧ inferBom [0xFF, 0xFE, 0, 0] = some "UTF-32LE" ∧
    inferBom [0x41] = none := by decide

/-- C46 fails for a stream that cannot seek and holds at most four bytes in all: the letter A in UTF-16 with a byte order
mark is valid text, but reading it throws an exception. -/
theorem C46_short_violated : ∃ all : Bytes, HasMark all "UTF-16LE" ∧
    (∃ text, Decodes (codec16 false) () all text .clean) ∧
    ∃ t, makeUtf8Stream unicodeCodec utf8BufferSize all false [] none = .ok t ∧ (t.read 100).1 = .err .streamError := by
  refine ⟨[0xFF, 0xFE, 0x41, 0x00], .utf16le _ ⟨[0x41, 0x00], rfl⟩ (by decide), ⟨[Char.ofNat 0xFEFF, 'A'].flatMap encode8, ?_⟩, ?_⟩
  · exact decodes16_all false [Char.ofNat 0xFEFF, 'A']
  · obtain ⟨s', h1, h2⟩ := fillBuffer_take [0xFF, 0xFE, 0x41, 0x00] [] 4
    have hb : inferBom (List.take 4 [0xFF, 0xFE, 0x41, 0x00]) = some encUtf16le := by decide
    simp only [makeUtf8Stream, h1, hb]
    refine ⟨_, rfl, ?_⟩
    obtain ⟨got, s'', g1, g2, g3, g4⟩ := fillBuffer_spec s' (utf8BufferSize - 4)
    have hd : s'.data = [] := h2
    rw [hd] at g2
    have hg : got = [] := (List.append_eq_nil_iff.1 g2).1
    subst hg
    have e1 : (encUtf16le == encUtf8) = false := by decide
    simp [wrapUtf8, Utf8Stream.new, Utf8Stream.setPreamble, e1, TextStream.read, Utf8Stream.read, hd, Utf8Stream.convert,
      Utf8Stream.turn, Utf8Stream.refill, g1]

end Mlio
