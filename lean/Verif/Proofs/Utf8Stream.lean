import Verif.Spec.Utf8Stream
import Verif.Proofs.StreamReader

/-!
# Proofs about UTF-8 conversion of streams
-/

namespace Mlio
open Spec

/-! ## iconv -/

theorem decodes_char {c : Codec} {s s' : c.σ} {b out text : Bytes} {n : Nat} {e : TextEnd} (h : Decodes c s b text e)
    (hs : c.step s b = .done n out s') (hb : b ≠ []) : ∃ t, text = out ++ t ∧ Decodes c s' (b.drop n) t e := by
  cases h with
  | clean => exact absurd rfl hb
  | truncated _ _ _ h => rw [hs] at h; cases h
  | malformed _ _ _ h => rw [hs] at h; cases h
  | char s1 s1' b1 out1 text1 n1 e1 h1 h2 h3 =>
    rw [hs] at h2
    cases h2
    exact ⟨_, rfl, h3⟩

theorem decodes_truncated {c : Codec} {s : c.σ} {b text : Bytes} {e : TextEnd} (h : Decodes c s b text e)
    (hs : c.step s b = .incomplete) (hb : b ≠ []) : e ≠ .clean := by
  cases h with
  | clean => exact absurd rfl hb
  | truncated _ h => decide
  | malformed _ h => decide
  | char s1 s1' b1 out1 text1 n1 e1 h1 h2 h3 => rw [hs] at h2; cases h2

theorem decodes_malformed {c : Codec} {s : c.σ} {b text : Bytes} {e : TextEnd} (h : Decodes c s b text e)
    (hs : c.step s b = .invalid) (hb : b ≠ []) : e ≠ .clean := by
  cases h with
  | clean => exact absurd rfl hb
  | truncated _ h => decide
  | malformed _ h => decide
  | char s1 s1' b1 out1 text1 n1 e1 h1 h2 h3 => rw [hs] at h2; cases h2

theorem decodes_nil {c : Codec} {s : c.σ} {text : Bytes} {e : TextEnd} (h : Decodes c s [] text e) :
    text = [] ∧ e = .clean := by
  cases h with
  | clean => exact ⟨rfl, rfl⟩
  | truncated _ _ h => exact absurd rfl h
  | malformed _ _ h => exact absurd rfl h
  | char _ _ _ _ _ _ _ h1 => exact absurd rfl h1

/-- What one call of `iconv` does. -/
theorem iconv_spec (c : Codec) (hc : LawfulCodec c) : ∀ (fuel : Nat) (s : c.σ) (inp : Bytes) (room : Nat), inp.length ≤ fuel →
    (iconvLoop c fuel s inp room).out.length ≤ room ∧
    (∃ k, (iconvLoop c fuel s inp room).left = inp.drop k) ∧
    (∀ y text e, Decodes c s (inp ++ y) text e → ∃ t, text = (iconvLoop c fuel s inp room).out ++ t ∧
      Decodes c (iconvLoop c fuel s inp room).state ((iconvLoop c fuel s inp room).left ++ y) t e) ∧
    match (iconvLoop c fuel s inp room).status with
    | .ok => (iconvLoop c fuel s inp room).left = []
    | .incompleteChar => (iconvLoop c fuel s inp room).left ≠ [] ∧
        c.step (iconvLoop c fuel s inp room).state (iconvLoop c fuel s inp room).left = .incomplete
    | .invalid => (iconvLoop c fuel s inp room).left ≠ [] ∧
        c.step (iconvLoop c fuel s inp room).state (iconvLoop c fuel s inp room).left = .invalid
    | .leftover => room < (iconvLoop c fuel s inp room).out.length + 4 := by
  intro fuel
  induction fuel with
  | zero =>
    intro s inp room h
    have : inp = [] := by rcases inp with _ | ⟨b, bs⟩; rfl; simp at h
    subst this
    exact ⟨by simp [iconvLoop], ⟨0, rfl⟩, fun y text e h => ⟨text, rfl, h⟩, rfl⟩
  | succ fuel ih =>
    intro s inp room h
    rcases inp with _ | ⟨b, bs⟩
    · exact ⟨by simp [iconvLoop], ⟨0, rfl⟩, fun y text e h => ⟨text, rfl, h⟩, rfl⟩
    · have hne : ∀ y, b :: bs ++ y ≠ [] := by intro y; simp
      rcases hst : c.step s (b :: bs) with ⟨n, out, s'⟩ | _ | _
      · obtain ⟨hn, hn', ho⟩ := hc.size _ _ _ _ _ hst
        by_cases hr : out.length ≤ room
        · obtain ⟨h1, ⟨k, h2⟩, h3, h4⟩ := ih s' ((b :: bs).drop n) (room - out.length) (by
            rw [List.length_drop]; simp only [List.length_cons] at h ⊢; omega)
          have e : iconvLoop c (fuel + 1) s (b :: bs) room =
              { iconvLoop c fuel s' ((b :: bs).drop n) (room - out.length) with
                out := out ++ (iconvLoop c fuel s' ((b :: bs).drop n) (room - out.length)).out } := by
            simp only [iconvLoop, hst, if_pos hr]
          rw [e]
          refine ⟨by simp only [List.length_append]; omega, ⟨n + k, by simp only; rw [h2, List.drop_drop]⟩, ?_, ?_⟩
          · intro y text e' hd
            obtain ⟨t, ht, hd'⟩ := decodes_char hd (hc.done_stable _ _ _ _ _ y hst) (hne y)
            rw [List.drop_append_of_le_length hn'] at hd'
            obtain ⟨t', ht', hd''⟩ := h3 y t e' hd'
            exact ⟨t', by rw [ht, ht', List.append_assoc], hd''⟩
          · revert h4
            simp only
            split <;> intro h4
            · exact h4
            · exact h4
            · exact h4
            · simp only [List.length_append]; omega
        · have e : iconvLoop c (fuel + 1) s (b :: bs) room = ⟨.leftover, b :: bs, [], s⟩ := by
            simp only [iconvLoop, hst, if_neg hr]
          rw [e]
          exact ⟨by simp, ⟨0, rfl⟩, fun y text e h => ⟨text, rfl, h⟩, by simp only [List.length_nil]; omega⟩
      · have e : iconvLoop c (fuel + 1) s (b :: bs) room = ⟨.incompleteChar, b :: bs, [], s⟩ := by
          simp only [iconvLoop, hst]
        rw [e]
        exact ⟨by simp, ⟨0, rfl⟩, fun y text e h => ⟨text, rfl, h⟩, by simp, hst⟩
      · have e : iconvLoop c (fuel + 1) s (b :: bs) room = ⟨.invalid, b :: bs, [], s⟩ := by
          simp only [iconvLoop, hst]
        rw [e]
        exact ⟨by simp, ⟨0, rfl⟩, fun y text e h => ⟨text, rfl, h⟩, by simp, hst⟩

/-! ## The converting stream -/

theorem fillBuffer_spec (s : Stream) (n : Nat) : ∃ got s', fillBuffer s n = some (got, s') ∧ got ++ s'.data = s.data ∧
    got.length ≤ n ∧ (s'.data ≠ [] → got.length = n) := by
  obtain ⟨got, s', e, h1, h2, h3, h4, h5⟩ := fillLoop_spec n s n (Nat.le_refl n)
  refine ⟨got, s', by simp [fillBuffer, h1], h2, h3, fun hne => ?_⟩
  cases e with
  | true => exact absurd (h4 rfl) hne
  | false => exact h5 rfl

/-- The bytes that were not converted yet. -/
def Utf8Stream.pending {c : Codec} (u : Utf8Stream c) : Bytes :=
  (if u.shouldFill then u.mem.take u.pos else (u.mem.take u.fin).drop u.pos) ++ u.inner.data

/-- The invariant of the converting stream. -/
structure Utf8Inv {c : Codec} (cap : Nat) (u : Utf8Stream c) : Prop where
  pos_fin : u.pos ≤ u.fin
  fin_cap : u.inner.data ≠ [] → u.fin = cap
  fill : u.shouldFill = true → u.pos ≤ u.mem.length ∧ u.pos < cap ∧
    (u.pos ≠ 0 → c.step u.state (u.mem.take u.pos) = .incomplete ∨ u.inner.data ≠ [])
  held : u.shouldFill = false → u.fin ≤ u.mem.length

/-- The number of turns that can be needed. -/
def Utf8Stream.turnsLeft {c : Codec} (u : Utf8Stream c) : Nat := u.inner.data.length + if u.shouldFill then 1 else 2

theorem overwriteFrom_take (mem x : Bytes) (p : Nat) (h : p ≤ mem.length) :
    (overwriteFrom mem p x).take (p + x.length) = mem.take p ++ x := by
  unfold overwriteFrom
  rw [List.take_append_of_le_length (by simp only [List.length_append, List.length_take]; omega)]
  rw [List.take_of_length_le]
  simp only [List.length_append, List.length_take]; omega

theorem overwriteFrom_length (mem x : Bytes) (p : Nat) (h : p ≤ mem.length) : p + x.length ≤ (overwriteFrom mem p x).length := by
  unfold overwriteFrom
  simp only [List.length_append, List.length_take]; omega

theorem transcode_spec {c : Codec} (hc : LawfulCodec c) (cap : Nat) (hcap : 2 ^ 24 ≤ cap) (u : Utf8Stream c)
    (h : Utf8Inv cap u) (hf : u.shouldFill = false) (room : Nat) (hr : 4 ≤ room) (text : Bytes) (e : TextEnd)
    (hd : Decodes c u.state u.pending text e) :
    match u.transcode room with
    | (.ok b, u') => b.length ≤ room ∧ Utf8Inv cap u' ∧ u'.inner = u.inner ∧ u'.isUtf8 = u.isUtf8 ∧ u'.rest = u.rest ∧
        (b = [] → u'.shouldFill = true) ∧
        ∃ t, text = b ++ t ∧ Decodes c u'.state u'.pending t e
    | (.err er, _) => er = .streamError ∧ e ≠ .clean
    | (.ub _, _) => False := by
  have hheld := h.held hf
  have hpf := h.pos_fin
  generalize hinp : (u.mem.take u.fin).drop u.pos = inp
  have hlen : inp.length = u.fin - u.pos := by
    rw [← hinp, List.length_drop, List.length_take]; omega
  have hpend : u.pending = inp ++ u.inner.data := by simp [Utf8Stream.pending, hf, hinp]
  rw [hpend] at hd
  obtain ⟨h1, ⟨k, h2⟩, h3, h4⟩ := iconv_spec c hc inp.length u.state inp room (Nat.le_refl _)
  obtain ⟨t, ht, hd'⟩ := h3 _ _ _ hd
  have hleft : (iconvLoop c inp.length u.state inp room).left.length ≤ inp.length := by
    rw [h2, List.length_drop]; omega
  unfold Utf8Stream.transcode
  simp only [hinp]
  rcases hstat : (iconvLoop c inp.length u.state inp room).status with _ | _ | _ | _
  · -- ok
    rw [hstat] at h4
    simp only at h4 ⊢
    refine ⟨h1, ⟨Nat.zero_le _, h.fin_cap, fun _ => ⟨Nat.zero_le _, by simp only; omega, fun hz => absurd rfl hz⟩,
      fun hz => by cases hz⟩, trivial, trivial, trivial, fun _ => trivial, t, ht, ?_⟩
    rw [h4] at hd'
    simpa [Utf8Stream.pending] using hd'
  · -- incomplete
    rw [hstat] at h4
    simp only at h4 ⊢
    have hshort := hc.incomplete_short _ _ h4.2
    have htk := overwriteFrom_take u.mem (iconvLoop c inp.length u.state inp room).left 0 (Nat.zero_le _)
    simp only [Nat.zero_add, List.take_zero, List.nil_append] at htk
    have hol := overwriteFrom_length u.mem (iconvLoop c inp.length u.state inp room).left 0 (Nat.zero_le _)
    refine ⟨h1, ⟨by simp only; omega, h.fin_cap, fun _ => ⟨by simp only; omega, by simp only; omega, fun _ => Or.inl ?_⟩,
      fun hz => by cases hz⟩, trivial, trivial, trivial, fun _ => trivial, t, ht, ?_⟩
    · simp only [htk]; exact h4.2
    · simpa [Utf8Stream.pending, htk] using hd'
  · -- leftover
    rw [hstat] at h4
    simp only at h4 ⊢
    refine ⟨h1, ⟨by simp only; omega, h.fin_cap, fun hz => (by simp only [hf] at hz; cases hz), fun _ => hheld⟩,
      trivial, trivial, trivial, ?_, t, ht, ?_⟩
    · intro hz
      rw [hz] at h4
      simp only [List.length_nil] at h4
      omega
    · have hdrop : (u.mem.take u.fin).drop (u.fin - (iconvLoop c inp.length u.state inp room).left.length) =
          (iconvLoop c inp.length u.state inp room).left := by
        have hk : u.fin - (iconvLoop c inp.length u.state inp room).left.length = u.pos + min k inp.length := by
          rw [h2, List.length_drop]; omega
        rw [hk, ← List.drop_drop, hinp]
        rw [h2]
        rcases Nat.le_total k inp.length with hkl | hkl
        · rw [Nat.min_eq_left hkl]
        · rw [Nat.min_eq_right hkl, List.drop_length, List.drop_eq_nil_of_le hkl]
      simpa [Utf8Stream.pending, hf, hdrop] using hd'
  · -- invalid
    rw [hstat] at h4
    simp only at h4 ⊢
    refine ⟨trivial, decodes_malformed hd' (hc.invalid_stable _ _ _ h4.2) ?_⟩
    intro hz
    exact h4.1 (List.append_eq_nil_iff.1 hz).1

theorem refill_spec {c : Codec} (cap : Nat) (u : Utf8Stream c) (h : Utf8Inv cap u) (hf : u.shouldFill = true)
    (text : Bytes) (e : TextEnd) (hd : Decodes c u.state u.pending text e) :
    match u.refill with
    | (.ok (some ()), u') => Utf8Inv cap u' ∧ u'.shouldFill = false ∧ u'.isUtf8 = u.isUtf8 ∧ u'.rest = u.rest ∧
        u'.state = u.state ∧ u'.pending = u.pending ∧ u'.inner.data.length < u.inner.data.length
    | (.ok none, u') => text = [] ∧ e = .clean ∧ Utf8Inv cap u' ∧ u'.isUtf8 = u.isUtf8 ∧ u'.rest = u.rest ∧
        u'.state = u.state ∧ u'.pending = []
    | (.err er, _) => er = .streamError ∧ e ≠ .clean
    | (.ub _, _) => False := by
  obtain ⟨hm, hpc, hinc⟩ := h.fill hf
  obtain ⟨got, s', h1, h2, h3, h4⟩ := fillBuffer_spec u.inner (u.fin - u.pos)
  have hpend : u.pending = u.mem.take u.pos ++ u.inner.data := by simp [Utf8Stream.pending, hf]
  unfold Utf8Stream.refill
  simp only [h1]
  by_cases hz : got.length = 0
  · rw [if_pos hz]
    have hgot : got = [] := List.length_eq_zero_iff.1 hz
    subst hgot
    have hdata : u.inner.data = [] := by
      by_cases hdn : u.inner.data = []
      · exact hdn
      · have := h.fin_cap hdn
        have hs' : s'.data ≠ [] := by rw [← h2] at hdn; simpa using hdn
        have := h4 hs'
        simp only [List.length_nil] at this
        omega
    have hs' : s'.data = [] := by rw [hdata] at h2; simpa using h2
    by_cases hp : u.pos ≠ 0
    · rw [if_pos hp]
      simp only
      rcases hinc hp with hi | hi
      · refine ⟨trivial, decodes_truncated hd (by rw [hpend, hdata, List.append_nil]; exact hi) ?_⟩
        rw [hpend, hdata, List.append_nil]
        intro hz
        have := congrArg List.length hz
        simp only [List.length_take, List.length_nil] at this
        omega
      · exact absurd hdata hi
    · rw [if_neg hp]
      have hp0 : u.pos = 0 := by omega
      have hpn : u.pending = [] := by rw [hpend, hdata, hp0]; rfl
      rw [hpn] at hd
      obtain ⟨ht, he⟩ := decodes_nil hd
      simp only
      refine ⟨ht, he, ⟨by simp only [List.length_nil]; omega, fun hz => absurd hs' hz,
        fun _ => ⟨by rw [hp0]; exact Nat.zero_le _, by simp only; omega, fun hz => absurd hp0 hz⟩,
        fun hz => by simp only [hf] at hz; cases hz⟩, trivial, trivial, trivial, ?_⟩
      simp [Utf8Stream.pending, hf, hp0, hs']
  · rw [if_neg hz]
    simp only
    have hol := overwriteFrom_length u.mem got u.pos hm
    have htk := overwriteFrom_take u.mem got u.pos hm
    have hpf := h.pos_fin
    refine ⟨⟨Nat.zero_le _, ?_, fun hz => (by cases hz), fun _ => hol⟩, trivial, trivial, trivial, trivial, ?_, ?_⟩
    · intro hne
      have h5 := h4 hne
      have : u.inner.data ≠ [] := by
        intro hz'; rw [hz'] at h2; exact hne (List.append_eq_nil_iff.1 h2).2
      have := h.fin_cap this
      simp only
      omega
    · rw [hpend, ← h2]
      simp [Utf8Stream.pending, htk]
    · have := congrArg List.length h2
      simp only [List.length_append] at this
      omega

theorem turn_spec {c : Codec} (hc : LawfulCodec c) (cap : Nat) (hcap : 2 ^ 24 ≤ cap) (u : Utf8Stream c)
    (h : Utf8Inv cap u) (room : Nat) (hr : 4 ≤ room) (text : Bytes) (e : TextEnd)
    (hd : Decodes c u.state u.pending text e) :
    match u.turn room with
    | (.ok none, u') => text = [] ∧ e = .clean ∧ Utf8Inv cap u' ∧ u'.isUtf8 = u.isUtf8 ∧ u'.rest = u.rest ∧
        Decodes c u'.state u'.pending [] e
    | (.ok (some b), u') => b.length ≤ room ∧ Utf8Inv cap u' ∧ u'.isUtf8 = u.isUtf8 ∧ u'.rest = u.rest ∧
        (b = [] → u'.turnsLeft < u.turnsLeft) ∧ ∃ t, text = b ++ t ∧ Decodes c u'.state u'.pending t e
    | (.err er, _) => er = .streamError ∧ e ≠ .clean
    | (.ub _, _) => False := by
  unfold Utf8Stream.turn
  by_cases hf : u.shouldFill = true
  · simp only [if_pos hf]
    have h1 := refill_spec cap u h hf text e hd
    rcases hrf : u.refill with ⟨_ | _ | _, u1⟩
    · rename_i o
      cases o with
      | none =>
        rw [hrf] at h1
        obtain ⟨a1, a2, a3, a4, a5, a6, a7⟩ := h1
        refine ⟨a1, a2, a3, a4, a5, ?_⟩
        rw [a7, a2]; exact .clean _
      | some x =>
        cases x
        rw [hrf] at h1
        simp only at h1 ⊢
        obtain ⟨a1, a2, a3, a4, a5, a6, a7⟩ := h1
        have h2 := transcode_spec hc cap hcap u1 a1 a2 room hr text e (by rw [a5, a6]; exact hd)
        rcases htr : u1.transcode room with ⟨_ | _ | _, u2⟩
        · rw [htr] at h2
          simp only at h2 ⊢
          obtain ⟨b1, b2, b3, b4, b5, b6, b7⟩ := h2
          refine ⟨b1, b2, b4.trans a3, b5.trans a4, ?_, b7⟩
          intro hz
          simp only [Utf8Stream.turnsLeft, b3, b6 hz, hf, if_true]
          omega
        · rw [htr] at h2; exact h2
        · rw [htr] at h2; exact h2
    · rw [hrf] at h1; exact h1
    · rw [hrf] at h1; exact h1
  · have hf' : u.shouldFill = false := by simpa using hf
    simp only [if_neg hf]
    have h2 := transcode_spec hc cap hcap u h hf' room hr text e hd
    rcases htr : u.transcode room with ⟨_ | _ | _, u2⟩
    · rw [htr] at h2
      simp only at h2 ⊢
      obtain ⟨b1, b2, b3, b4, b5, b6, b7⟩ := h2
      refine ⟨b1, b2, b4, b5, ?_, b7⟩
      intro hz
      simp [Utf8Stream.turnsLeft, b3, b6 hz, hf']
    · rw [htr] at h2; exact h2
    · rw [htr] at h2; exact h2

theorem convert_spec {c : Codec} (hc : LawfulCodec c) (cap : Nat) (hcap : 2 ^ 24 ≤ cap) (room : Nat) (hr : 4 ≤ room)
    (e : TextEnd) : ∀ (fuel : Nat) (u : Utf8Stream c) (text : Bytes), u.turnsLeft ≤ fuel → Utf8Inv cap u →
    Decodes c u.state u.pending text e →
    match u.convert fuel room with
    | (.ok b, u') => b.length ≤ room ∧ Utf8Inv cap u' ∧ u'.isUtf8 = u.isUtf8 ∧ u'.rest = u.rest ∧
        (b = [] → text = [] ∧ e = .clean) ∧ ∃ t, text = b ++ t ∧ Decodes c u'.state u'.pending t e
    | (.err er, _) => er = .streamError ∧ e ≠ .clean
    | (.ub _, _) => False := by
  intro fuel
  induction fuel with
  | zero =>
    intro u text hf
    unfold Utf8Stream.turnsLeft at hf
    split at hf <;> omega
  | succ fuel ih =>
    intro u text hf h hd
    have h1 := turn_spec hc cap hcap u h room hr text e hd
    rw [Utf8Stream.convert]
    rcases htu : u.turn room with ⟨_ | _ | _, u1⟩
    · rename_i o
      rw [htu] at h1
      cases o with
      | none =>
        obtain ⟨a1, a2, a3, a4, a5, a6⟩ := h1
        exact ⟨Nat.zero_le _, a3, a4, a5, fun _ => ⟨a1, a2⟩, [], a1, a6⟩
      | some b =>
        simp only at h1 ⊢
        obtain ⟨a1, a2, a3, a4, a5, t, a6, a7⟩ := h1
        by_cases hb : b = []
        · subst hb
          simp only [List.isEmpty_nil, if_true]
          have h2 := ih u1 t (by have := a5 rfl; omega) a2 a7
          rcases hcv : u1.convert fuel room with ⟨_ | _ | _, u2⟩
          · rw [hcv] at h2
            simp only at h2 ⊢
            obtain ⟨b1, b2, b3, b4, b5, b6⟩ := h2
            rw [List.nil_append] at a6
            subst a6
            exact ⟨b1, b2, b3.trans a3, b4.trans a4, b5, b6⟩
          · rw [hcv] at h2; exact h2
          · rw [hcv] at h2; exact h2
        · have : b.isEmpty = false := by cases b <;> simp_all
          simp only [this, Bool.false_eq_true, if_false]
          exact ⟨a1, a2, a3, a4, fun hz => absurd hz hb, t, a6, a7⟩
    · rw [htu] at h1; exact h1
    · rw [htu] at h1; exact h1

theorem turnsLeft_le {c : Codec} (u : Utf8Stream c) : u.turnsLeft ≤ u.inner.data.length + 2 := by
  unfold Utf8Stream.turnsLeft; split <;> omega

/-- Is the text faulty? -/
def Spec.TextEnd.faulty (e : TextEnd) : Bool := e != .clean

theorem faulty_of {e : TextEnd} (h : e ≠ .clean) : e.faulty = true := by simpa [TextEnd.faulty] using h

theorem textReads_any (codec : String → Codec) : ∀ (ns : List Nat) (t : TextStream codec), (t.reads ns).length = ns.length
  | [], _ => rfl
  | _ :: ns, t => by simp [TextStream.reads, textReads_any codec ns]

/-- Reading the converted text. -/
theorem converted_reads (codec : String → Codec) (name : String) (hc : LawfulCodec (codec name)) (cap : Nat)
    (hcap : 2 ^ 24 ≤ cap) (e : TextEnd) : ∀ (ns : List Nat) (u : Utf8Stream (codec name)) (text : Bytes),
    u.isUtf8 = false → Utf8Inv cap u → Decodes _ u.state u.pending text e →
    TextReads e.faulty (u.rest ++ text) ns ((TextStream.wrapped name u).reads ns) := by
  intro ns
  induction ns with
  | nil => intro u text _ _ _; exact .nil _
  | cons n ns ih =>
    intro u text hu h hd
    simp only [TextStream.reads, TextStream.read]
    by_cases hn : n = 0
    · subst hn
      simp only [Utf8Stream.read, if_true]
      exact .zero _ _ _ (ih u text hu h hd)
    · have copy : ∀ (u : Utf8Stream (codec name)) (text : Bytes), u.isUtf8 = false → Utf8Inv cap u →
          Decodes _ u.state u.pending text e → u.rest ≠ [] →
          TextReads e.faulty (u.rest ++ text) (n :: ns) ((u.copyRest n).1 :: TextStream.reads (.wrapped name (u.copyRest n).2) ns) := by
        intro u text hu h hd hrest
        simp only [Utf8Stream.copyRest]
        have := ih { u with rest := u.rest.drop n } text hu ⟨h.1, h.2, h.3, h.4⟩ hd
        have e1 : u.rest ++ text = u.rest.take n ++ (u.rest.drop n ++ text) := by
          rw [← List.append_assoc, List.take_append_drop]
        rw [e1]
        refine .more _ _ _ _ _ ?_ (by rw [List.length_take]; omega) this
        intro hz
        have := congrArg List.length hz
        have h0 := List.length_pos_iff.2 hrest
        simp only [List.length_take, List.length_nil] at this
        omega
      by_cases hrest : u.rest = []
      · have hre : u.rest.isEmpty = true := by rw [hrest]; rfl
        simp only [Utf8Stream.read, if_neg hn, hre, if_true, hu, Bool.false_eq_true, if_false]
        by_cases h4 : n ≥ 4
        · simp only [if_pos h4]
          have h1 := convert_spec hc cap hcap n h4 e _ u text (turnsLeft_le u) h hd
          rcases hcv : u.convert (u.inner.data.length + 2) n with ⟨_ | _ | _, u1⟩
          · rename_i b
            rw [hcv] at h1
            simp only at h1 ⊢
            obtain ⟨b1, b2, b3, b4, b5, t, b6, b7⟩ := h1
            have := ih u1 t (b3.trans hu) b2 b7
            rw [b4, hrest, List.nil_append] at this
            rw [hrest, List.nil_append]
            by_cases hb : b = []
            · obtain ⟨ht, he⟩ := b5 hb
              subst hb
              rw [ht] at b6 ⊢
              rw [List.nil_append] at b6
              rw [← b6] at this
              exact .done _ _ _ (by rw [he]; rfl) this
            · rw [b6]
              exact .more _ _ _ _ _ hb b1 this
          · rw [hcv] at h1
            simp only at h1 ⊢
            rw [h1.1]
            exact .fault _ _ _ _ (faulty_of h1.2) (by omega) (textReads_any codec ns _)
          · rw [hcv] at h1; exact h1.elim
        · simp only [if_neg h4]
          have h1 := convert_spec hc cap hcap 4 (Nat.le_refl 4) e _ u text (turnsLeft_le u) h hd
          rcases hcv : u.convert (u.inner.data.length + 2) 4 with ⟨_ | _ | _, u1⟩
          · rename_i b
            rw [hcv] at h1
            simp only at h1 ⊢
            obtain ⟨b1, b2, b3, b4, b5, t, b6, b7⟩ := h1
            rw [hrest, List.nil_append]
            by_cases hb : b = []
            · subst hb
              simp only [List.isEmpty_nil, if_true]
              obtain ⟨ht, he⟩ := b5 rfl
              have := ih u1 t (b3.trans hu) b2 b7
              rw [b4, hrest, List.nil_append] at this
              rw [ht] at b6 ⊢
              rw [List.nil_append] at b6
              rw [← b6] at this
              exact .done _ _ _ (by rw [he]; rfl) this
            · have hbe : b.isEmpty = false := by cases b <;> simp_all
              simp only [hbe, Bool.false_eq_true, if_false]
              rw [b6]
              exact copy { u1 with rest := b } t (b3.trans hu) ⟨b2.1, b2.2, b2.3, b2.4⟩ b7 hb
          · rw [hcv] at h1
            simp only at h1 ⊢
            rw [h1.1]
            exact .fault _ _ _ _ (faulty_of h1.2) (by omega) (textReads_any codec ns _)
          · rw [hcv] at h1; exact h1.elim
      · have hre : u.rest.isEmpty = false := by cases hh : u.rest <;> simp_all
        simp only [Utf8Stream.read, if_neg hn, hre, Bool.false_eq_true, if_false]
        exact copy u text hu h hd hrest

theorem read_zero (s : Stream) : (s.read 0).1 = [] ∧ (s.read 0).2.data = s.data := by
  obtain ⟨data, sched⟩ := s
  cases sched <;> simp [Stream.read]

/-- Reading UTF-8 through the wrapper. -/
theorem forwarded_reads (codec : String → Codec) (name : String) : ∀ (ns : List Nat) (u : Utf8Stream (codec name)),
    u.isUtf8 = true → TextReads false (u.rest ++ u.inner.data) ns ((TextStream.wrapped name u).reads ns) := by
  intro ns
  induction ns with
  | nil => intro u _; exact .nil _
  | cons n ns ih =>
    intro u hu
    simp only [TextStream.reads, TextStream.read]
    by_cases hn : n = 0
    · subst hn
      simp only [Utf8Stream.read, if_true]
      exact .zero _ _ _ (ih u hu)
    · by_cases hrest : u.rest = []
      · have hre : u.rest.isEmpty = true := by rw [hrest]; rfl
        simp only [Utf8Stream.read, if_neg hn, hre, if_true, hu]
        obtain ⟨h1, h2, h3⟩ := Stream.read_spec u.inner n (by omega)
        have := ih { u with inner := (u.inner.read n).2 } hu
        rw [hrest, List.nil_append]
        simp only [hrest, hu, List.nil_append] at this
        by_cases hb : (u.inner.read n).1 = []
        · have hdn := h3 (by rw [hb]; rfl)
          rw [hb, List.nil_append] at h1
          rw [h1, hdn] at this
          rw [hb, hdn]
          exact .done _ _ _ rfl this
        · rw [← h1]
          exact .more _ _ _ _ _ hb h2 this
      · have hre : u.rest.isEmpty = false := by cases hh : u.rest <;> simp_all
        simp only [Utf8Stream.read, if_neg hn, hre, Bool.false_eq_true, if_false, Utf8Stream.copyRest]
        have := ih { u with rest := u.rest.drop n } hu
        have e1 : u.rest ++ u.inner.data = u.rest.take n ++ (u.rest.drop n ++ u.inner.data) := by
          rw [← List.append_assoc, List.take_append_drop]
        rw [e1]
        refine .more _ _ _ _ _ ?_ (by rw [List.length_take]; omega) this
        intro hz
        have := congrArg List.length hz
        have h0 := List.length_pos_iff.2 hrest
        simp only [List.length_take, List.length_nil] at this
        omega

/-- Reading a stream that is not wrapped. -/
theorem same_reads (codec : String → Codec) : ∀ (ns : List Nat) (s : Stream),
    TextReads false s.data ns ((TextStream.same (codec := codec) s).reads ns) := by
  intro ns
  induction ns with
  | nil => intro s; exact .nil _
  | cons n ns ih =>
    intro s
    simp only [TextStream.reads, TextStream.read]
    by_cases hn : n = 0
    · subst hn
      obtain ⟨h1, h2⟩ := read_zero s
      have := ih (s.read 0).2
      rw [h2] at this
      rw [h1]
      exact .zero _ _ _ this
    · obtain ⟨h1, h2, h3⟩ := Stream.read_spec s n (by omega)
      have := ih (s.read n).2
      by_cases hb : (s.read n).1 = []
      · have hdn := h3 (by rw [hb]; rfl)
        rw [hb, List.nil_append] at h1
        rw [h1, hdn] at this
        rw [hb, hdn]
        exact .done _ _ _ rfl this
      · rw [← h1]
        exact .more _ _ _ _ _ hb h2 this

/-! ## Detection -/

theorem fillBuffer_take (all : Bytes) (sched : List Nat) (n : Nat) : ∃ s', fillBuffer ⟨all, sched⟩ n = some (all.take n, s') ∧
    s'.data = all.drop n := by
  obtain ⟨got, s', h1, h2, h3, h4⟩ := fillBuffer_spec ⟨all, sched⟩ n
  simp only at h2
  have hg : got = all.take n ∧ s'.data = all.drop n := by
    by_cases hs : s'.data = []
    · rw [hs, List.append_nil] at h2
      subst h2
      exact ⟨(List.take_of_length_le h3).symm, by rw [hs, List.drop_eq_nil_of_le h3]⟩
    · have hl := h4 hs
      subst hl
      rw [← h2]
      exact ⟨by simp, by simp⟩
  exact ⟨s', by rw [h1, hg.1], hg.2⟩

theorem inferBom_iff (all : Bytes) (name : String) : inferBom (all.take 4) = some name ↔ HasMark all name := by
  constructor
  · intro h
    rcases all with _ | ⟨a, _ | ⟨b, _ | ⟨c, _ | ⟨d, r⟩⟩⟩⟩ <;>
      simp only [inferBom, List.take_nil, List.take_succ_cons, List.take_zero, List.length_cons, List.length_nil,
        List.getD_cons_zero, List.getD_cons_succ, List.getD_nil, encUtf8, encUtf32be, encUtf32le, encUtf16be, encUtf16le] at h
    · simp at h
    · simp at h
    · split at h
      · omega
      split at h
      · omega
      split at h
      · omega
      split at h
      · rename_i hh
        cases h
        obtain ⟨_, rfl, rfl⟩ := hh
        exact .utf16be _ ⟨[], rfl⟩
      split at h
      · rename_i hh
        cases h
        obtain ⟨_, rfl, rfl⟩ := hh
        refine .utf16le _ ⟨[], rfl⟩ ?_
        rintro ⟨t, ht⟩
        simp [bomUtf32le] at ht
      · cases h
    · split at h
      · rename_i hh
        cases h
        obtain ⟨_, rfl, rfl, rfl⟩ := hh
        exact .utf8 _ ⟨[], rfl⟩
      split at h
      · omega
      split at h
      · omega
      split at h
      · rename_i hh
        cases h
        obtain ⟨_, rfl, rfl⟩ := hh
        exact .utf16be _ ⟨[c], rfl⟩
      split at h
      · rename_i hh
        cases h
        obtain ⟨_, rfl, rfl⟩ := hh
        refine .utf16le _ ⟨[c], rfl⟩ ?_
        rintro ⟨t, ht⟩
        simp [bomUtf32le] at ht
      · cases h
    · split at h
      · rename_i hh
        cases h
        obtain ⟨_, rfl, rfl, rfl⟩ := hh
        exact .utf8 _ ⟨d :: r, rfl⟩
      split at h
      · rename_i hh
        cases h
        obtain ⟨_, rfl, rfl, rfl, rfl⟩ := hh
        exact .utf32be _ ⟨r, rfl⟩
      split at h
      · rename_i hh
        cases h
        obtain ⟨_, rfl, rfl, rfl, rfl⟩ := hh
        exact .utf32le _ ⟨r, rfl⟩
      rename_i hn
      split at h
      · rename_i hh
        cases h
        obtain ⟨_, rfl, rfl⟩ := hh
        exact .utf16be _ ⟨c :: d :: r, rfl⟩
      split at h
      · rename_i hh
        cases h
        obtain ⟨_, rfl, rfl⟩ := hh
        refine .utf16le _ ⟨c :: d :: r, rfl⟩ ?_
        rintro ⟨t, ht⟩
        simp [bomUtf32le] at ht
        exact hn ⟨by decide, rfl, rfl, ht.1.symm, ht.2.1.symm⟩
      · cases h
  · intro h
    cases h with
    | utf8 h => obtain ⟨t, rfl⟩ := h; rcases t with _ | ⟨a, t⟩ <;> simp [inferBom, bomUtf8, encUtf8]
    | utf32be h => obtain ⟨t, rfl⟩ := h; simp [inferBom, bomUtf32be, encUtf32be]
    | utf32le h => obtain ⟨t, rfl⟩ := h; simp [inferBom, bomUtf32le, encUtf32le]
    | utf16be h => obtain ⟨t, rfl⟩ := h; rcases t with _ | ⟨a, _ | ⟨b, t⟩⟩ <;> simp [inferBom, bomUtf16be, encUtf16be]
    | utf16le h hn =>
      obtain ⟨t, rfl⟩ := h
      rcases t with _ | ⟨a, _ | ⟨b, t⟩⟩
      · simp [inferBom, bomUtf16le, encUtf16le]
      · simp [inferBom, bomUtf16le, encUtf16le]
      · have : ¬ (a = 0 ∧ b = 0) := by
          rintro ⟨rfl, rfl⟩
          exact hn ⟨t, rfl⟩
        simp [inferBom, bomUtf16le, encUtf16le, this]

theorem new_inv (c : Codec) (cap : Nat) (hcap : 2 ^ 24 ≤ cap) (inner : Stream) (name : String) (hn : name ≠ encUtf8) :
    Utf8Inv cap (Utf8Stream.new c cap inner name) := by
  have : (name == encUtf8) = false := by simpa using hn
  refine ⟨Nat.zero_le _, fun _ => by simp [Utf8Stream.new, this], fun _ => ⟨Nat.zero_le _, ?_, fun h => absurd rfl h⟩,
    fun h => by cases h⟩
  simp only [Utf8Stream.new]; omega

theorem preamble_inv (c : Codec) (cap : Nat) (hcap : 2 ^ 24 ≤ cap) (inner : Stream) (name : String) (hn : name ≠ encUtf8)
    (p : Bytes) (hp : p.length ≤ 4) (hi : p = [] ∨ inner.data ≠ []) :
    Utf8Inv cap ((Utf8Stream.new c cap inner name).setPreamble p) ∧
    ((Utf8Stream.new c cap inner name).setPreamble p).isUtf8 = false ∧
    ((Utf8Stream.new c cap inner name).setPreamble p).rest = [] ∧
    ((Utf8Stream.new c cap inner name).setPreamble p).state = c.init ∧
    ((Utf8Stream.new c cap inner name).setPreamble p).pending = p ++ inner.data := by
  have hb : (name == encUtf8) = false := by simpa using hn
  have ho : overwriteFrom [] 0 p = p := by simp [overwriteFrom]
  simp only [Utf8Stream.setPreamble, Utf8Stream.new, hb, Bool.false_eq_true, if_false, ho]
  refine ⟨⟨by simp only; omega, fun _ => rfl, fun _ => ⟨Nat.le_refl _, by simp only; omega, ?_⟩, fun h => by cases h⟩,
    trivial, trivial, trivial, by simp [Utf8Stream.pending]⟩
  intro h
  rcases hi with hi | hi
  · rw [hi] at h; exact absurd rfl h
  · exact Or.inr hi

/-- A converting stream delivers the converted text. -/
theorem wrap_reads (codec : String → Codec) (cap : Nat) (hcap : 2 ^ 24 ≤ cap) (all : Bytes) (seekable : Bool) (s : Stream)
    (p : Bytes) (name : String) (hn : name ≠ encUtf8) (hc : LawfulCodec (codec name)) (hp : p.length ≤ 4)
    (hall : p ++ s.data = all) (hshort : seekable = true ∨ p = [] ∨ s.data ≠ []) (text : Bytes) (e : TextEnd)
    (hd : Decodes (codec name) (codec name).init all text e) (ns : List Nat) :
    TextReads e.faulty text ns ((wrapUtf8 codec cap all seekable s p name).reads ns) := by
  have hb : (name == encUtf8) = false := by simpa using hn
  unfold wrapUtf8
  cases seekable with
  | true =>
    simp only [if_true]
    have := converted_reads codec name hc cap hcap e ns (Utf8Stream.new (codec name) cap { s with data := all } name) text
      (by simp [Utf8Stream.new, hb]) (new_inv _ cap hcap _ name hn) (by simpa [Utf8Stream.pending, Utf8Stream.new] using hd)
    simpa [Utf8Stream.new] using this
  | false =>
    simp only [Bool.false_eq_true, if_false]
    obtain ⟨h1, h2, h3, h4, h5⟩ := preamble_inv (codec name) cap hcap s name hn p hp (by simpa using hshort)
    have := converted_reads codec name hc cap hcap e ns _ text h2 h1 (by rw [h4, h5, hall]; exact hd)
    rw [h3] at this
    exact this

/-! ## UTF-16 and UTF-32 -/

theorem encode8_length (ch : Char) : (encode8 ch).length ≤ 4 := by
  unfold encode8 String.utf8EncodeChar
  simp only
  split
  · simp
  · split
    · simp
    · split <;> simp

theorem codec16_lawful (be : Bool) : LawfulCodec (codec16 be) where
  size := by
    intro s b n out s' h
    simp only [codec16] at h
    split at h
    · rename_i x y r
      split at h
      · cases h
        exact ⟨by decide, by simp, encode8_length _⟩
      · split at h
        · cases h
        · split at h
          · split at h
            · cases h
              exact ⟨by decide, by simp, encode8_length _⟩
            · cases h
          · cases h
    · cases h
  done_stable := by
    intro s b n out s' x h
    simp only [codec16] at h ⊢
    rcases b with _ | ⟨b0, _ | ⟨b1, _ | ⟨b2, _ | ⟨b3, r⟩⟩⟩⟩
    · cases h
    · cases h
    · simp only [List.cons_append, List.nil_append] at h ⊢
      split at h
      · rename_i hv; rw [if_pos hv]; exact h
      · split at h <;> cases h
    · simp only [List.cons_append, List.nil_append] at h ⊢
      split at h
      · rename_i hv; rw [if_pos hv]; exact h
      · split at h <;> cases h
    · exact h
  invalid_stable := by
    intro s b x h
    simp only [codec16] at h ⊢
    rcases b with _ | ⟨b0, _ | ⟨b1, _ | ⟨b2, _ | ⟨b3, r⟩⟩⟩⟩
    · cases h
    · cases h
    · simp only [List.cons_append, List.nil_append] at h ⊢
      split at h
      · cases h
      · rename_i hv
        rw [if_neg hv]
        split at h
        · rename_i hv2; rw [if_pos hv2]
        · cases h
    · simp only [List.cons_append, List.nil_append] at h ⊢
      split at h
      · cases h
      · rename_i hv
        rw [if_neg hv]
        split at h
        · rename_i hv2; rw [if_pos hv2]
        · cases h
    · exact h
  incomplete_short := by
    intro s b h
    simp only [codec16] at h
    rcases b with _ | ⟨b0, _ | ⟨b1, _ | ⟨b2, _ | ⟨b3, r⟩⟩⟩⟩
    · simp
    · simp
    · simp
    · simp
    · simp only at h
      split at h
      · cases h
      · split at h
        · cases h
        · split at h <;> cases h

theorem codec32_lawful (be : Bool) : LawfulCodec (codec32 be) where
  size := by
    intro s b n out s' h
    simp only [codec32] at h
    split at h
    · split at h
      · cases h
        exact ⟨by decide, by simp, encode8_length _⟩
      · cases h
    · cases h
  done_stable := by
    intro s b n out s' x h
    simp only [codec32] at h ⊢
    rcases b with _ | ⟨b0, _ | ⟨b1, _ | ⟨b2, _ | ⟨b3, r⟩⟩⟩⟩
    · cases h
    · cases h
    · cases h
    · cases h
    · exact h
  invalid_stable := by
    intro s b x h
    simp only [codec32] at h ⊢
    rcases b with _ | ⟨b0, _ | ⟨b1, _ | ⟨b2, _ | ⟨b3, r⟩⟩⟩⟩
    · cases h
    · cases h
    · cases h
    · cases h
    · exact h
  incomplete_short := by
    intro s b h
    simp only [codec32] at h
    rcases b with _ | ⟨b0, _ | ⟨b1, _ | ⟨b2, _ | ⟨b3, r⟩⟩⟩⟩
    · simp
    · simp
    · simp
    · simp
    · simp only at h
      split at h <;> cases h

theorem char_valid (ch : Char) : ch.toNat < 0xD800 ∨ (0xE000 ≤ ch.toNat ∧ ch.toNat < 0x110000) := by
  have := ch.valid
  simp only [UInt32.isValidChar, Nat.isValidChar] at this
  simp only [Char.toNat]
  omega

theorem char_ofNat (ch : Char) : Char.ofNat ch.toNat = ch := Char.ofNat_toNat ch

theorem ofNat_byte (n : Nat) (h : n < 256) : (UInt8.ofNat n).toNat = n := by
  rw [UInt8.toNat_ofNat']; omega

theorem unit16_step (be : Bool) (v : Nat) (hv : v < 0x10000) (r : Bytes) : ∃ x y, unit16 be v ++ r = x :: y :: r ∧ value16 be x y = v := by
  cases be
  · refine ⟨_, _, rfl, ?_⟩
    simp only [value16, Bool.false_eq_true, if_false]
    rw [ofNat_byte _ (by omega), ofNat_byte _ (by omega)]
    omega
  · refine ⟨_, _, rfl, ?_⟩
    simp only [value16, if_true]
    rw [ofNat_byte _ (by omega), ofNat_byte _ (by omega)]
    omega

theorem decodes16 (be : Bool) (ch : Char) (r text : Bytes) (e : TextEnd) (h : Decodes (codec16 be) () r text e) :
    Decodes (codec16 be) () (encode16 be ch ++ r) (encode8 ch ++ text) e := by
  have hv := char_valid ch
  unfold encode16
  by_cases hs : ch.toNat < 0x10000
  · rw [if_pos hs]
    obtain ⟨x, y, h1, h2⟩ := unit16_step be ch.toNat hs r
    rw [h1]
    have hst : (codec16 be).step () (x :: y :: r) = .done 2 (encode8 ch) () := by
      simp only [codec16, h2]
      rw [if_pos (by omega), char_ofNat]
    exact Decodes.char (c := codec16 be) (s := ()) (s' := ()) (b := x :: y :: r) (out := encode8 ch) (text := text) (n := 2) (e := e) (by simp) hst h
  · rw [if_neg hs, List.append_assoc]
    obtain ⟨z, w, g1, g2⟩ := unit16_step be (0xDC00 + (ch.toNat - 0x10000) % 0x400) (by omega) r
    rw [g1]
    obtain ⟨x, y, h1, h2⟩ := unit16_step be (0xD800 + (ch.toNat - 0x10000) / 0x400) (by omega) (z :: w :: r)
    rw [h1]
    have hst : (codec16 be).step () (x :: y :: z :: w :: r) = .done 4 (encode8 ch) () := by
      simp only [codec16, h2, g2]
      rw [if_neg (by omega), if_neg (by omega), if_pos (by omega)]
      have : 0x10000 + (0xD800 + (ch.toNat - 0x10000) / 0x400 - 0xD800) * 0x400 +
          (0xDC00 + (ch.toNat - 0x10000) % 0x400 - 0xDC00) = ch.toNat := by omega
      rw [this, char_ofNat]
    exact Decodes.char (c := codec16 be) (s := ()) (s' := ()) (b := x :: y :: z :: w :: r) (out := encode8 ch) (text := text) (n := 4) (e := e) (by simp) hst h

theorem decodes32 (be : Bool) (ch : Char) (r text : Bytes) (e : TextEnd) (h : Decodes (codec32 be) () r text e) :
    Decodes (codec32 be) () (encode32 be ch ++ r) (encode8 ch ++ text) e := by
  have hv := char_valid ch
  have key : ∃ x y z w, encode32 be ch ++ r = x :: y :: z :: w :: r ∧ value32 be x y z w = ch.toNat := by
    cases be
    · refine ⟨_, _, _, _, rfl, ?_⟩
      simp only [value32, Bool.false_eq_true, if_false]
      rw [ofNat_byte _ (by omega), ofNat_byte _ (by omega), ofNat_byte _ (by omega), ofNat_byte _ (by omega)]
      omega
    · refine ⟨_, _, _, _, rfl, ?_⟩
      simp only [value32, if_true]
      rw [ofNat_byte _ (by omega), ofNat_byte _ (by omega), ofNat_byte _ (by omega), ofNat_byte _ (by omega)]
      omega
  obtain ⟨x, y, z, w, h1, h2⟩ := key
  rw [h1]
  have hst : (codec32 be).step () (x :: y :: z :: w :: r) = .done 4 (encode8 ch) () := by
    simp only [codec32, h2]
    rw [if_pos (by omega), char_ofNat]
  exact Decodes.char (c := codec32 be) (s := ()) (s' := ()) (b := x :: y :: z :: w :: r) (out := encode8 ch) (text := text) (n := 4) (e := e) (by simp) hst h

theorem decodes16_all (be : Bool) : ∀ cs : List Char,
    Decodes (codec16 be) () (cs.flatMap (encode16 be)) (cs.flatMap encode8) .clean
  | [] => .clean _
  | ch :: cs => by
    simp only [List.flatMap_cons]
    exact decodes16 be ch _ _ _ (decodes16_all be cs)

theorem decodes32_all (be : Bool) : ∀ cs : List Char,
    Decodes (codec32 be) () (cs.flatMap (encode32 be)) (cs.flatMap encode8) .clean
  | [] => .clean _
  | ch :: cs => by
    simp only [List.flatMap_cons]
    exact decodes32 be ch _ _ _ (decodes32_all be cs)

end Mlio
