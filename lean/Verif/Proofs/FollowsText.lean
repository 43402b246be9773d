import Verif.Proofs.Follows

/-!
# Text streams over streams that fail
-/

namespace Mlio
open Spec

section
variable {B : Nat} {e : Err} {m m' : InStream} {F : m.σ → Prop} {R : m.σ → m'.σ → Prop} {c : Codec}

/-- The same converter over another stream. -/
def GUtf8.over (u : GUtf8 m c) (s' : m'.σ) : GUtf8 m' c := ⟨s', u.isUtf8, u.mem, u.pos, u.fin, u.shouldFill, u.rest, u.state⟩

/-- There is room in the buffer. -/
structure GUtf8.Roomy (B : Nat) (u : GUtf8 m c) : Prop where
  lower : 2 ^ 24 ≤ u.fin
  upper : u.fin ≤ B
  pos : u.shouldFill = true → u.pos < u.fin

theorem refill_follows (h : Follows B e m m' (fun _ => F) R) (u : GUtf8 m c) (s' : m'.σ) (hu : u.Roomy B) (hs : u.shouldFill = true)
    (hR : R u.inner s') :
    (∃ s1, u.refill = (.err e, { u with inner := s1 }) ∧ F s1) ∨
    (∃ u1 s1', u.refill = (.ok (some ()), u1) ∧ (u.over s').refill = (.ok (some ()), u1.over s1') ∧ R u1.inner s1' ∧
      u1.fin = u.fin ∧ u1.shouldFill = false ∧ u1.rest = u.rest ∧ u1.isUtf8 = u.isUtf8) := by
  have hp := hu.pos hs
  have hB := hu.upper
  rcases gFill_follows h (u.fin - u.pos) u.inner s' (u.fin - u.pos) (Nat.le_refl _) (by omega) hR with
    ⟨s1, h1, h2, _⟩ | ⟨got, s1, s1', h1, h2, h3, h4⟩
  · left
    refine ⟨s1, ?_, h2⟩
    unfold GUtf8.refill
    rw [h1]
  · right
    have h2' : gFill m' ((u.over s' : GUtf8 m' c).fin - (u.over s' : GUtf8 m' c).pos) (u.over s' : GUtf8 m' c).inner
      ((u.over s' : GUtf8 m' c).fin - (u.over s' : GUtf8 m' c).pos) = (.ok (got, false), s1') := h2
    unfold GUtf8.refill
    rw [h1, h2']
    simp only [if_neg (show ¬ got.length = 0 by omega)]
    refine ⟨_, s1', rfl, rfl, h4, ?_, rfl, rfl, rfl⟩
    simp only
    omega

theorem transcode_over (u : GUtf8 m c) (s' : m'.σ) (room : Nat) :
    (u.over s').transcode room = ((u.transcode room).1, (u.transcode room).2.over s') ∧
      (u.transcode room).2.inner = u.inner ∧ (u.transcode room).2.fin = u.fin ∧ (u.transcode room).2.rest = u.rest ∧
      (u.transcode room).2.isUtf8 = u.isUtf8 := by
  unfold GUtf8.transcode
  simp only [show (u.over s' : GUtf8 m' c).mem = u.mem from rfl, show (u.over s' : GUtf8 m' c).pos = u.pos from rfl,
    show (u.over s' : GUtf8 m' c).fin = u.fin from rfl, show (u.over s' : GUtf8 m' c).state = u.state from rfl]
  cases (iconvLoop c ((u.mem.take u.fin).drop u.pos).length u.state ((u.mem.take u.fin).drop u.pos) room).status <;>
    exact ⟨rfl, rfl, rfl, rfl, rfl⟩

theorem transcode_roomy (hc : LawfulCodec c) (u : GUtf8 m c) (hu : u.Roomy B) (room : Nat) (hs : u.shouldFill = false) :
    (u.transcode room).2.Roomy B := by
  obtain ⟨_, _, _, hst⟩ := iconv_spec c hc _ u.state ((u.mem.take u.fin).drop u.pos) room (Nat.le_refl _)
  have hl := hu.lower
  unfold GUtf8.transcode
  simp only
  cases h : (iconvLoop c ((u.mem.take u.fin).drop u.pos).length u.state ((u.mem.take u.fin).drop u.pos) room).status with
  | ok => exact ⟨hu.lower, hu.upper, fun _ => by simp only; omega⟩
  | incompleteChar =>
    rw [h] at hst
    have := hc.incomplete_short _ _ hst.2
    exact ⟨hu.lower, hu.upper, fun _ => by simp only; omega⟩
  | leftover => exact ⟨hu.lower, hu.upper, fun hx => by simp only [hs] at hx; cases hx⟩
  | invalid => exact hu

/-- One turn of the conversion. -/
theorem turn_follows (h : Follows B e m m' (fun _ => F) R) (hc : LawfulCodec c) (u : GUtf8 m c) (s' : m'.σ) (hu : u.Roomy B)
    (hR : R u.inner s') (room : Nat) :
    (∃ s1, u.turn room = (.err e, { u with inner := s1 }) ∧ F s1 ∧ u.shouldFill = true) ∨
    (∃ o u1 s1', u.turn room = (o, u1) ∧ (u.over s').turn room = (o, u1.over s1') ∧ o ≠ .ok none ∧ R u1.inner s1' ∧
      u1.Roomy B ∧ u1.rest = u.rest ∧ u1.isUtf8 = u.isUtf8) := by
  have go : ∀ (u : GUtf8 m c) (s' : m'.σ), u.Roomy B → R u.inner s' → u.shouldFill = false → ∃ o u1 s1',
      (match u.transcode room with
        | (.ok b, u') => (Res.ok (some b), u')
        | (.err e, u') => (.err e, u')
        | (.ub w, u') => (.ub w, u')) = (o, u1) ∧
      (match (u.over s' : GUtf8 m' c).transcode room with
        | (.ok b, u') => (Res.ok (some b), u')
        | (.err e, u') => (.err e, u')
        | (.ub w, u') => (.ub w, u')) = (o, u1.over s1') ∧ o ≠ .ok none ∧ R u1.inner s1' ∧
      u1.Roomy B ∧ u1.rest = u.rest ∧ u1.isUtf8 = u.isUtf8 := by
    intro u s' hu hR hs
    obtain ⟨t1, t2, t3, t4, t5⟩ := transcode_over u s' room
    have hr := transcode_roomy hc u hu room hs
    rw [t1]
    rcases hx : u.transcode room with ⟨o | e' | w, u1⟩ <;> rw [hx] at t2 t3 t4 t5 hr
    · exact ⟨_, u1, s', rfl, rfl, by simp, by rw [t2]; exact hR, hr, t4, t5⟩
    · exact ⟨_, u1, s', rfl, rfl, by simp, by rw [t2]; exact hR, hr, t4, t5⟩
    · exact ⟨_, u1, s', rfl, rfl, by simp, by rw [t2]; exact hR, hr, t4, t5⟩
  unfold GUtf8.turn
  simp only [show (u.over s' : GUtf8 m' c).shouldFill = u.shouldFill from rfl]
  by_cases hs : u.shouldFill = true
  · rw [if_pos hs, if_pos hs]
    rcases refill_follows h u s' hu hs hR with ⟨s1, h1, h2⟩ | ⟨u1, s1', h1, h2, h3, h4, h5, h6, h7⟩
    · left
      rw [h1]
      exact ⟨s1, rfl, h2, hs⟩
    · right
      rw [h1, h2]
      obtain ⟨o, u2, s2', k1, k2, k3, k4, k5, k6, k7⟩ := go u1 s1'
        ⟨by rw [h4]; exact hu.lower, by rw [h4]; exact hu.upper, fun hx => by rw [h5] at hx; cases hx⟩ h3 h5
      exact ⟨o, u2, s2', k1, k2, k3, k4, k5, k6.trans h6, k7.trans h7⟩
  · rw [if_neg hs, if_neg hs]
    exact Or.inr (go u s' hu hR (by simpa using hs))

/-- The conversion. -/
theorem convert_follows (h : Follows B e m m' (fun _ => F) R) (hc : LawfulCodec c) (room fuel : Nat) : ∀ (u : GUtf8 m c) (s' : m'.σ),
    u.Roomy B → R u.inner s' →
    (∃ u1, u.convert fuel room = (.err e, u1) ∧ F u1.inner ∧ u1.shouldFill = true ∧ u1.Roomy B ∧ u1.rest = u.rest ∧
      u1.isUtf8 = u.isUtf8) ∨
    (∃ o u1 s1', u.convert fuel room = (o, u1) ∧ (u.over s').convert fuel room = (o, u1.over s1') ∧ o ≠ .ok [] ∧ R u1.inner s1' ∧
      u1.Roomy B ∧ u1.rest = u.rest ∧ u1.isUtf8 = u.isUtf8) := by
  induction fuel with
  | zero => intro u s' hu hR; exact Or.inr ⟨_, u, s', rfl, rfl, by simp, hR, hu, rfl, rfl⟩
  | succ fuel ih =>
    intro u s' hu hR
    unfold GUtf8.convert
    rcases turn_follows h hc u s' hu hR room with ⟨s1, h1, h2, h3⟩ | ⟨o, u1, s1', h1, h2, h3, h4, h5, h6, h7⟩
    · left
      rw [h1]
      exact ⟨_, rfl, h2, h3, ⟨hu.lower, hu.upper, hu.pos⟩, rfl, rfl⟩
    · rw [h1, h2]
      match o, h3 with
      | .ok none, h3 => exact absurd rfl h3
      | .ok (some b), _ =>
        simp only
        by_cases hb : b.isEmpty = true
        · rw [if_pos hb, if_pos hb]
          rcases ih u1 s1' h5 h4 with ⟨u2, k1, k2, k3, k4, k5, k6⟩ | ⟨o, u2, s2', k1, k2, k3, k4, k5, k6, k7⟩
          · exact Or.inl ⟨u2, k1, k2, k3, k4, k5.trans h6, k6.trans h7⟩
          · exact Or.inr ⟨o, u2, s2', k1, k2, k3, k4, k5, k6.trans h6, k7.trans h7⟩
        · rw [if_neg hb, if_neg hb]
          refine Or.inr ⟨_, u1, s1', rfl, rfl, ?_, h4, h5, h6, h7⟩
          intro hx
          cases hx
          exact hb rfl
      | .err e', _ => exact Or.inr ⟨_, u1, s1', rfl, rfl, by simp, h4, h5, h6, h7⟩
      | .ub w, _ => exact Or.inr ⟨_, u1, s1', rfl, rfl, by simp, h4, h5, h6, h7⟩

/-- What holds of a converter over a stream that has not failed. -/
def GUtf8.Fine (B : Nat) (u : GUtf8 m c) : Prop := u.isUtf8 = false → LawfulCodec c ∧ u.Roomy B

/-- What holds of a converter over a stream that has failed. -/
def GUtf8.Failed (B : Nat) (F : m.σ → Prop) (u : GUtf8 m c) : Prop :=
  F u.inner ∧ u.rest = [] ∧ (u.isUtf8 = false → u.shouldFill = true ∧ u.Roomy B)

theorem uread_follows (h : Follows B e m m' (fun _ => F) R) (fuel : Nat) (u : GUtf8 m c) (s' : m'.σ) (hu : u.Fine B) (hR : R u.inner s')
    (n : Nat) (h0 : 0 < n) (hn : n ≤ B) :
    (∃ u1, u.read fuel n = (.err e, u1) ∧ u1.Failed B F) ∨
    (∃ o u1 s1', u.read fuel n = (o, u1) ∧ (u.over s').read fuel n = (o, u1.over s1') ∧ o ≠ .ok [] ∧ R u1.inner s1' ∧ u1.Fine B) := by
  have take : ∀ x : Bytes, x ≠ [] → x.take n ≠ [] := by
    intro x hx ht
    have := congrArg List.length ht
    have := List.length_pos_iff.2 hx
    simp only [List.length_take, List.length_nil] at *
    omega
  unfold GUtf8.read
  rw [if_neg (show ¬ n = 0 by omega), if_neg (show ¬ n = 0 by omega)]
  simp only [show (u.over s' : GUtf8 m' c).rest = u.rest from rfl, show (u.over s' : GUtf8 m' c).isUtf8 = u.isUtf8 from rfl]
  by_cases hr : u.rest.isEmpty = true
  · rw [if_pos hr, if_pos hr]
    have hr' : u.rest = [] := List.isEmpty_iff.1 hr
    by_cases h8 : u.isUtf8 = true
    · rw [if_pos h8, if_pos h8]
      rcases h.step u.inner s' n hR h0 hn with ⟨s1, h1, h2⟩ | ⟨x, s1, s1', h1, h2, h3, h4, h5⟩
      · left
        rw [h1]
        exact ⟨_, rfl, h2, hr', fun hx => by simp only [h8] at hx; cases hx⟩
      · right
        have h2' : m'.read (u.over s' : GUtf8 m' c).inner n = (.ok x, s1') := h2
        rw [h1, h2']
        exact ⟨_, { u with inner := s1 }, s1', rfl, rfl, by simpa using h3, h5, fun hx => by simp only [h8] at hx; cases hx⟩
    · rw [if_neg h8, if_neg h8]
      have h8' : u.isUtf8 = false := by simpa using h8
      obtain ⟨hc, hroom⟩ := hu h8'
      by_cases h4 : n ≥ 4
      · rw [if_pos h4, if_pos h4]
        rcases convert_follows h hc n fuel u s' hroom hR with ⟨u1, k1, k2, k3, k4, k5, k6⟩ | ⟨o, u1, s1', k1, k2, k3, k4, k5, k6, k7⟩
        · exact Or.inl ⟨u1, k1, k2, k5.trans hr', fun _ => ⟨k3, k4⟩⟩
        · exact Or.inr ⟨o, u1, s1', k1, k2, k3, k4, fun _ => ⟨hc, k5⟩⟩
      · rw [if_neg h4, if_neg h4]
        rcases convert_follows h hc 4 fuel u s' hroom hR with ⟨u1, k1, k2, k3, k4, k5, k6⟩ | ⟨o, u1, s1', k1, k2, k3, k4, k5, k6, k7⟩
        · left
          rw [k1]
          exact ⟨u1, rfl, k2, k5.trans hr', fun _ => ⟨k3, k4⟩⟩
        · right
          rw [k1, k2]
          match o, k3 with
          | .ok [], k3 => exact absurd rfl k3
          | .ok (b :: bs), _ =>
            refine ⟨_, { u1 with rest := (b :: bs).drop n }, s1', rfl, rfl, ?_, k4, fun _ => ⟨hc, ⟨k5.lower, k5.upper, k5.pos⟩⟩⟩
            intro hx
            exact take (b :: bs) (by simp) (Res.ok.inj hx)
          | .err e', _ => exact ⟨_, u1, s1', rfl, rfl, by simp, k4, fun _ => ⟨hc, k5⟩⟩
          | .ub w, _ => exact ⟨_, u1, s1', rfl, rfl, by simp, k4, fun _ => ⟨hc, k5⟩⟩
  · rw [if_neg hr, if_neg hr]
    right
    refine ⟨_, { u with rest := u.rest.drop n }, s', rfl, rfl, ?_, hR, fun hx => ⟨(hu hx).1, ⟨(hu hx).2.lower, (hu hx).2.upper, (hu hx).2.pos⟩⟩⟩
    intro hx
    exact take u.rest (fun hx => hr (by rw [hx]; rfl)) (Res.ok.inj hx)

theorem uread_stuck (h : Follows B e m m' (fun _ => F) R) (fuel : Nat) (u : GUtf8 m c) (hu : u.Failed B F) (n : Nat) (h0 : 0 < n) (hn : n ≤ B) :
    ∃ u1, u.read (fuel + 1) n = (.err e, u1) ∧ u1.Failed B F := by
  obtain ⟨hF, hr, h8⟩ := hu
  unfold GUtf8.read
  rw [if_neg (show ¬ n = 0 by omega), if_pos (by rw [hr]; rfl)]
  cases hi : u.isUtf8 with
  | true =>
    rw [if_pos rfl]
    obtain ⟨s1, h1, h2⟩ := h.stuck u.inner n n hF (Nat.le_refl _) h0 hn
    rw [h1]
    exact ⟨_, rfl, h2, hr, fun hx => by simp only [hi] at hx; cases hx⟩
  | false =>
    rw [if_neg (by simp)]
    obtain ⟨hs, hroom⟩ := h8 hi
    have hp := hroom.pos hs
    have hub := hroom.upper
    obtain ⟨s1, h1, h2⟩ := gFill_stuck h (u.fin - u.pos) u.inner (u.fin - u.pos) (Nat.le_refl _) (by omega) (by omega) hF
    have hcv : ∀ room, u.convert (fuel + 1) room = (.err e, { u with inner := s1 }) := by
      intro room
      have hrf : u.refill = (.err e, { u with inner := s1 }) := by
        unfold GUtf8.refill
        rw [h1]
      unfold GUtf8.convert GUtf8.turn
      rw [if_pos hs, hrf]
    have hfail : ({ u with inner := s1 } : GUtf8 m c).Failed B F := ⟨h2, hr, fun _ => ⟨hs, ⟨hroom.lower, hroom.upper, hroom.pos⟩⟩⟩
    by_cases h4 : n ≥ 4
    · rw [if_pos h4, hcv]
      exact ⟨_, rfl, hfail⟩
    · rw [if_neg h4, hcv]
      exact ⟨_, rfl, hfail⟩

end

/-! ## The streams that `make_utf8_stream` returns -/

section
variable {B : Nat} {e : Err} {m m' : InStream} {F : m.σ → Prop} {R : m.σ → m'.σ → Prop} {codec : String → Codec}

/-- See `Follows`. -/
def textFailed (codec : String → Codec) (B : Nat) (F : m.σ → Prop) : GText m codec → Prop
  | .same _ => False
  | .wrapped _ u => u.Failed B F

/-- See `Follows`. -/
def textRel (codec : String → Codec) (fuel B : Nat) (R : m.σ → m'.σ → Prop) (t : GText m codec) (t' : GText m' codec) : Prop :=
  (∃ text, SuppliesTo B (textOver m' codec fuel) t' text) ∧
  ∃ name u s', t = .wrapped name u ∧ t' = .wrapped name (u.over s') ∧ u.Fine B ∧ R u.inner s'

theorem text_follows (h : Follows B e m m' (fun _ => F) R) (fuel : Nat) :
    Follows B e (textOver m codec (fuel + 1)) (textOver m' codec (fuel + 1)) (fun _ => textFailed codec B F)
      (textRel codec (fuel + 1) B R) := by
  refine ⟨?_, ?_, fun _ _ _ h _ => h⟩
  · rintro t t' n ⟨⟨text, hs⟩, name, u, s', rfl, rfl, hu, hR⟩ h0 hn
    obtain ⟨x, text', h1, h2, h3, h4, h5⟩ := hs.step hn
    rcases uread_follows h (fuel + 1) u s' hu hR n h0 hn with ⟨u1, k1, k2⟩ | ⟨o, u1, s1', k1, k2, k3, k4, k5⟩
    · left
      exact ⟨.wrapped name u1, by simp only [textOver, k1], k2⟩
    · right
      simp only [textOver, k2] at h1 h5
      subst h1
      refine ⟨x, .wrapped name u1, .wrapped name (u1.over s1'), by simp only [textOver, k1], by simp only [textOver, k2],
        fun hx => k3 (by rw [hx]), h3, ⟨text', h5⟩, name, u1, s1', rfl, rfl, k5, k4⟩
  · intro t k n hF _ h0 hn
    match t, hF with
    | .wrapped name u, hF =>
      obtain ⟨u1, k1, k2⟩ := uread_stuck h fuel u hF n h0 hn
      exact ⟨.wrapped name u1, by simp only [textOver, k1], k2⟩

end

theorem unicodeCodec_lawful (name : String) : LawfulCodec (unicodeCodec name) := by
  unfold unicodeCodec
  split
  · exact codec16_lawful _
  · split
    · exact codec16_lawful _
    · split
      · exact codec32_lawful _
      · exact codec32_lawful _

theorem setPreamble_over {m m' : InStream} {c : Codec} (u : GUtf8 m c) (s' : m'.σ) (p : Bytes) :
    (u.over s' : GUtf8 m' c).setPreamble p = (u.setPreamble p).over s' := by
  unfold GUtf8.setPreamble
  simp only [show (u.over s' : GUtf8 m' c).isUtf8 = u.isUtf8 from rfl]
  split <;> rfl

theorem new_fine {m : InStream} {B cap : Nat} (h1 : 2 ^ 24 ≤ cap) (h2 : cap ≤ B) (name : String) (s : m.σ) (p : Bytes)
    (hp : p.length ≤ 4) : ((GUtf8.new (unicodeCodec name) cap s name).setPreamble p).Fine B := by
  intro hx
  refine ⟨unicodeCodec_lawful name, ?_⟩
  by_cases hn : (name == encUtf8) = true
  · simp only [GUtf8.setPreamble, GUtf8.new, hn, if_true] at hx
    cases hx
  · simp only [GUtf8.setPreamble, GUtf8.new, hn, if_false, Bool.false_eq_true]
    exact ⟨h1, h2, fun _ => by simp only; omega⟩

/-- Making the stream, with detection of the encoding, over a stream that cannot seek. -/
theorem makeText_follows {B cap : Nat} {e : Err} {m m' : SrcClass} {F : m.σ → Prop} {R : m.σ → m'.σ → Prop}
    (h : Follows B e m.toInStream m'.toInStream (fun _ => F) R) (hB : 4 ≤ B) (hcap1 : 2 ^ 24 ≤ cap) (hcap2 : cap ≤ B)
    (hk : ∀ s s', R s s' → m.seek0 s = none ∧ m'.seek0 s' = none) (s : m.σ) (s' : m'.σ) (hR : R s s') (fuel : Nat) (text : Bytes)
    (hs : ∀ t', makeText unicodeCodec m' cap s' none = .ok t' → SuppliesTo B (textOver m'.toInStream unicodeCodec fuel) t' text) :
    makeText unicodeCodec m cap s none = .err e ∨
    (∃ t t', makeText unicodeCodec m cap s none = .ok t ∧ makeText unicodeCodec m' cap s' none = .ok t' ∧
      (∃ name u, t = .wrapped name u) ∧ textRel unicodeCodec fuel B R t t') := by
  have wrap : ∀ s1 s1' p name, p.length ≤ 4 → R s1 s1' →
      ∃ u : GUtf8 m.toInStream (unicodeCodec name), wrapText unicodeCodec m cap s1 p name = .ok (.wrapped name u) ∧
        wrapText unicodeCodec m' cap s1' p name = .ok (.wrapped name (u.over s1')) ∧ u.Fine B ∧ R u.inner s1' := by
    intro s1 s1' p name hp hR
    obtain ⟨k1, k2⟩ := hk s1 s1' hR
    refine ⟨(GUtf8.new (unicodeCodec name) cap s1 name).setPreamble p, by simp only [wrapText, k1], ?_,
      new_fine hcap1 hcap2 name s1 p hp, by rw [setPreamble_inner]; exact hR⟩
    simp only [wrapText, k2]
    rw [← setPreamble_over]
    rfl
  rcases gFill_follows h 4 s s' 4 (Nat.le_refl _) hB hR with ⟨s1, h1, h2, _⟩ | ⟨got, s1, s1', h1, h2, h3, h4⟩
  · left
    unfold makeText
    simp only [h1]
  · right
    obtain ⟨k1, k2⟩ := hk s1 s1' h4
    have key : ∃ name, ∃ u : GUtf8 m.toInStream (unicodeCodec name), makeText unicodeCodec m cap s none = .ok (.wrapped name u) ∧
        makeText unicodeCodec m' cap s' none = .ok (.wrapped name (u.over s1')) ∧ u.Fine B ∧ R u.inner s1' := by
      unfold makeText
      simp only [h1, h2]
      cases inferBom got with
      | some name => exact ⟨name, wrap s1 s1' got name (by omega) h4⟩
      | none =>
        simp only [k1, k2]
        exact ⟨encUtf8, wrap s1 s1' got encUtf8 (by omega) h4⟩
    obtain ⟨name, u, r1, r2, r3, r4⟩ := key
    exact ⟨_, _, r1, r2, ⟨name, u, rfl⟩, ⟨text, hs _ r2⟩, name, u, s1', rfl, rfl, r3, r4⟩

/-- A data store opened by a text reader over a stream that fails: it cannot be opened, or gives some of the rows and then fails
again and again. -/
theorem openLines_follows {B : Nat} {e : Err} {m m' : SrcClass} {F : m.σ → Prop} {R : m.σ → m'.σ → Prop}
    (h : Follows B e m.toInStream m'.toInStream (fun _ => F) R) (hB : 2 ^ 31 ≤ B)
    (hk : ∀ s s', R s s' → m.seek0 s = none ∧ m'.seek0 s' = none) (s : m.σ) (s' : m'.σ) (hR : R s s') (p : CsvParams)
    (fuel : Nat) (rows : List Bytes) (r' : LineReader unicodeCodec m' (fuel + 1))
    (ho : openLines unicodeCodec m' (fuel + 1) none s' = .ok r')
    (hy : (lineMachine unicodeCodec m' (csvDecode p) (fuel + 1)).Yields r' (rows.map fun b => ⟨0, b⟩) (.ok none))
    (hb : Backed unicodeCodec m' (fuel + 1) B none s') :
    openLines unicodeCodec m (fuel + 1) none s = .err e ∨
    ∃ r k, openLines unicodeCodec m (fuel + 1) none s = .ok r ∧ k ≤ rows.length ∧
      (lineMachine unicodeCodec m (csvDecode p) (fuel + 1)).Yields r ((rows.take k).map fun b => ⟨0, b⟩) (.err e) := by
  obtain ⟨text, hlen, hb⟩ := hb
  have hc : chunkSize ≤ B := Nat.le_trans (by decide) hB
  rcases makeText_follows h (by omega) (show 2 ^ 24 ≤ chunkSize by decide) hc hk s s' hR (fuel + 1) text hb with
    h1 | ⟨t, t', h1, h2, ⟨name0, u0, h3⟩, h4⟩
  · left
    unfold openLines
    rw [h1]
  · right
    subst h3
    have hsup := hb t' h2
    obtain ⟨_, name, u, s1', e1, rfl, _⟩ := id h4
    unfold openLines at ho ⊢
    rw [h2] at ho
    rw [h1]
    simp only [Res.ok.injEq] at ho
    subst ho
    have hread : ∀ n, ((GReader.init chunkSize (.wrapped name0 u0) : GReader (textOver m.toInStream unicodeCodec (fuel + 1))).over
        (m' := textOver m'.toInStream unicodeCodec (fuel + 1)) (.wrapped name (u.over s1'))).readN (csvDecode p) (fuel + 1) n =
        ((rows.map fun b => (⟨0, b⟩ : Record)).map (fun r => Res.ok (some r)) ++ List.replicate n (Res.ok none)).take n := by
      intro n
      have := hy n
      rw [lineMachine_stream_outs] at this
      exact this
    obtain ⟨k, k1, k2⟩ := readN_follows (text_follows h fuel) (csv_tame p) (D := text.length) (by omega) hlen fuel
      (rows.map fun b => ⟨0, b⟩)
      (GReader.init chunkSize (.wrapped name0 u0) : GReader (textOver m.toInStream unicodeCodec (fuel + 1)))
      (.wrapped name (u.over s1')) text h4 rfl (show 0 < chunkSize by decide)
      ⟨hsup.capped (by omega), by simp [GReader.over, GReader.init], hc⟩ hread
    refine ⟨_, k, rfl, by simpa using k1, fun n => ?_⟩
    rw [lineMachine_stream_outs, k2 n, ← List.map_take]

end Mlio
