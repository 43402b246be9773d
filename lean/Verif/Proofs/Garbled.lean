import Verif.Proofs.CutStores
import Verif.Spec.Garbled

/-!
# Data stores with text that is not well formed: proofs
-/

namespace Mlio
open Spec

/-! ## What is not a character -/

theorem byte_ofNat (b : UInt8) : UInt8.ofNat b.toNat = b := by simp

theorem ofNat_toNat_char {v : Nat} (h : v < 0xD800 ∨ (0xE000 ≤ v ∧ v < 0x110000)) : (Char.ofNat v).toNat = v := by
  have hv : v.isValidChar := by
    unfold Nat.isValidChar
    omega
  simp [Char.ofNat, hv, Char.ofNatAux, Char.toNat]

theorem unit16_value (be : Bool) (x y : UInt8) : unit16 be (value16 be x y) = [x, y] := by
  have hx := x.toNat_lt
  have hy := y.toNat_lt
  unfold unit16 value16
  cases be
  · simp only [Bool.false_eq_true, if_false]
    rw [show (y.toNat * 256 + x.toNat) % 256 = x.toNat by omega, show (y.toNat * 256 + x.toNat) / 256 = y.toNat by omega,
      byte_ofNat, byte_ofNat]
  · simp only [if_true]
    rw [show (x.toNat * 256 + y.toNat) % 256 = y.toNat by omega, show (x.toNat * 256 + y.toNat) / 256 = x.toNat by omega,
      byte_ofNat, byte_ofNat]

theorem value16_lt (be : Bool) (x y : UInt8) : value16 be x y < 0x10000 := by
  have hx := x.toNat_lt
  have hy := y.toNat_lt
  unfold value16
  split <;> omega

theorem step16_char (be : Bool) (b out : Bytes) (n : Nat) (s : Unit) (h : (codec16 be).step () b = .done n out s) :
    ∃ ch, encode16 be ch <+: b := by
  simp only [codec16] at h
  split at h
  · rename_i x y r
    have hv := value16_lt be x y
    split at h
    · rename_i hr
      refine ⟨Char.ofNat (value16 be x y), r, ?_⟩
      have : (Char.ofNat (value16 be x y)).toNat = value16 be x y := ofNat_toNat_char (by omega)
      unfold encode16
      rw [this, if_pos hv, unit16_value]
      rfl
    · split at h
      · cases h
      · split at h
        · rename_i h1 h2 _ z w r
          split at h
          · rename_i h3
            have hn : (Char.ofNat (0x10000 + (value16 be x y - 0xD800) * 0x400 + (value16 be z w - 0xDC00))).toNat =
                0x10000 + (value16 be x y - 0xD800) * 0x400 + (value16 be z w - 0xDC00) := ofNat_toNat_char (by omega)
            refine ⟨Char.ofNat (0x10000 + (value16 be x y - 0xD800) * 0x400 + (value16 be z w - 0xDC00)), r, ?_⟩
            unfold encode16
            rw [hn, if_neg (by omega),
              show 0xD800 + (0x10000 + (value16 be x y - 0xD800) * 0x400 + (value16 be z w - 0xDC00) - 0x10000) / 0x400 =
                value16 be x y by omega,
              show 0xDC00 + (0x10000 + (value16 be x y - 0xD800) * 0x400 + (value16 be z w - 0xDC00) - 0x10000) % 0x400 =
                value16 be z w by omega, unit16_value, unit16_value]
            rfl
          · cases h
        · cases h
  · cases h

theorem step32_char (be : Bool) (b out : Bytes) (n : Nat) (s : Unit) (h : (codec32 be).step () b = .done n out s) :
    ∃ ch, encode32 be ch <+: b := by
  simp only [codec32] at h
  split at h
  · rename_i x y z w r
    have hx := x.toNat_lt
    have hy := y.toNat_lt
    have hz := z.toNat_lt
    have hw := w.toNat_lt
    split at h
    · rename_i hr
      refine ⟨Char.ofNat (value32 be x y z w), r, ?_⟩
      have : (Char.ofNat (value32 be x y z w)).toNat = value32 be x y z w := ofNat_toNat_char (by omega)
      unfold encode32
      rw [this]
      unfold value32
      cases be
      · simp only [Bool.false_eq_true, if_false]
        rw [show (((w.toNat * 256 + z.toNat) * 256 + y.toNat) * 256 + x.toNat) % 256 = x.toNat by omega,
          show (((w.toNat * 256 + z.toNat) * 256 + y.toNat) * 256 + x.toNat) / 256 % 256 = y.toNat by omega,
          show (((w.toNat * 256 + z.toNat) * 256 + y.toNat) * 256 + x.toNat) / 65536 % 256 = z.toNat by omega,
          show (((w.toNat * 256 + z.toNat) * 256 + y.toNat) * 256 + x.toNat) / 16777216 = w.toNat by omega,
          byte_ofNat, byte_ofNat, byte_ofNat, byte_ofNat]
        rfl
      · simp only [if_true]
        rw [show (((x.toNat * 256 + y.toNat) * 256 + z.toNat) * 256 + w.toNat) % 256 = w.toNat by omega,
          show (((x.toNat * 256 + y.toNat) * 256 + z.toNat) * 256 + w.toNat) / 256 % 256 = z.toNat by omega,
          show (((x.toNat * 256 + y.toNat) * 256 + z.toNat) * 256 + w.toNat) / 65536 % 256 = y.toNat by omega,
          show (((x.toNat * 256 + y.toNat) * 256 + z.toNat) * 256 + w.toNat) / 16777216 = x.toNat by omega,
          byte_ofNat, byte_ofNat, byte_ofNat, byte_ofNat]
        rfl
    · cases h
  · cases h

/-- How text ends that goes on with something that is not a character. -/
theorem decodes_junk {c : Codec} {s : c.σ} {junk : Bytes} (h0 : junk ≠ []) (h : ∀ n out s', c.step s junk ≠ .done n out s') :
    ∃ e, e ≠ .clean ∧ Decodes c s junk [] e := by
  cases hs : c.step s junk with
  | done n out s' => exact absurd hs (h n out s')
  | incomplete => exact ⟨.truncated, by simp, .truncated s junk h0 hs⟩
  | invalid => exact ⟨.malformed, by simp, .malformed s junk h0 hs⟩

theorem decodes16_junk (be : Bool) (junk : Bytes) (e : TextEnd) (h : Decodes (codec16 be) () junk [] e) : ∀ cs : List Char,
    Decodes (codec16 be) () (cs.flatMap (encode16 be) ++ junk) (cs.flatMap encode8) e
  | [] => h
  | ch :: cs => by
    simp only [List.flatMap_cons, List.append_assoc]
    exact decodes16 be ch _ _ _ (decodes16_junk be junk e h cs)

theorem decodes32_junk (be : Bool) (junk : Bytes) (e : TextEnd) (h : Decodes (codec32 be) () junk [] e) : ∀ cs : List Char,
    Decodes (codec32 be) () (cs.flatMap (encode32 be) ++ junk) (cs.flatMap encode8) e
  | [] => h
  | ch :: cs => by
    simp only [List.flatMap_cons, List.append_assoc]
    exact decodes32 be ch _ _ _ (decodes32_junk be junk e h cs)

/-! ## The conversion, once it has failed -/

theorem iconvLoop_invalid (c : Codec) (fuel : Nat) : ∀ (s : c.σ) (inp : Bytes) (room room' : Nat), room ≤ room' →
    (iconvLoop c fuel s inp room).status = .invalid → (iconvLoop c fuel s inp room').status = .invalid := by
  induction fuel with
  | zero => intro s inp room room' _ h; exact h
  | succ fuel ih =>
    intro s inp room room' hr h
    unfold iconvLoop at h ⊢
    cases inp with
    | nil => exact h
    | cons b bs =>
      simp only at h ⊢
      cases hs : c.step s (b :: bs) with
      | incomplete => rw [hs] at h; exact h
      | invalid => rfl
      | done n out s' =>
        rw [hs] at h
        simp only at h ⊢
        split at h
        · rename_i hl
          rw [if_pos (by omega)]
          exact ih _ _ _ _ (by omega) h
        · cases h

section
variable {m : InStream} {c : Codec}

/-- It fails for reads of at least `k` bytes: what is in the buffer cannot be converted, or the stream has ended within a character. -/
def GUtf8.Stuck (k : Nat) (u : GUtf8 m c) : Prop :=
  u.rest = [] ∧ u.isUtf8 = false ∧
  ((u.shouldFill = false ∧ ∀ room, k ≤ room → 4 ≤ room →
      (iconvLoop c ((u.mem.take u.fin).drop u.pos).length u.state ((u.mem.take u.fin).drop u.pos) room).status = .invalid) ∨
    (u.shouldFill = true ∧ u.fin = u.pos ∧ u.pos ≠ 0))

theorem GUtf8.Stuck.convert {k : Nat} {u : GUtf8 m c} (h : u.Stuck k) (fuel room : Nat) (hk : k ≤ room) (h4 : 4 ≤ room) :
    ∃ u1, u.convert (fuel + 1) room = (.err .streamError, u1) ∧ u1.Stuck k := by
  obtain ⟨h1, h2, ⟨h3, h5⟩ | ⟨h3, h5, h6⟩⟩ := h
  · refine ⟨u, ?_, h1, h2, Or.inl ⟨h3, h5⟩⟩
    simp only [GUtf8.convert, GUtf8.turn, h3, Bool.false_eq_true, if_false, GUtf8.transcode, h5 room hk h4]
  · have hr : u.refill = (.err .streamError,
        { u with mem := overwriteFrom u.mem u.pos [], fin := u.pos + 0 }) := by
      unfold GUtf8.refill
      rw [h5, Nat.sub_self]
      simp [gFill, h6]
    refine ⟨{ u with mem := overwriteFrom u.mem u.pos [], fin := u.pos + 0 }, ?_, h1, h2, Or.inr ⟨h3, rfl, h6⟩⟩
    simp only [GUtf8.convert, GUtf8.turn, h3, if_true, hr]

theorem GUtf8.Stuck.read {k : Nat} {u : GUtf8 m c} (h : u.Stuck k) (fuel n : Nat) (hk : k ≤ n) (h0 : 0 < n) :
    ∃ u1, u.read (fuel + 1) n = (.err .streamError, u1) ∧ u1.Stuck k := by
  obtain ⟨h1, h2, _⟩ := id h
  unfold GUtf8.read
  rw [if_neg (by omega), if_pos (by rw [h1]; rfl), if_neg (by rw [h2]; simp)]
  by_cases h4 : n ≥ 4
  · rw [if_pos h4]
    exact h.convert fuel n hk h4
  · rw [if_neg h4]
    obtain ⟨u1, g1, g2⟩ := h.convert fuel 4 (by omega) (Nat.le_refl _)
    rw [g1]
    exact ⟨u1, rfl, g2⟩

/-- What the conversion does not change. -/
theorem transcode_keeps (u : GUtf8 m c) (room : Nat) :
    (u.transcode room).2.isUtf8 = u.isUtf8 ∧ (u.transcode room).2.rest = u.rest := by
  unfold GUtf8.transcode
  simp only
  split <;> exact ⟨rfl, rfl⟩

theorem refill_keeps (u : GUtf8 m c) : u.refill.2.isUtf8 = u.isUtf8 ∧ u.refill.2.rest = u.rest := by
  unfold GUtf8.refill
  split
  · exact ⟨rfl, rfl⟩
  · exact ⟨rfl, rfl⟩
  · simp only
    split
    · split <;> exact ⟨rfl, rfl⟩
    · exact ⟨rfl, rfl⟩

/-- The conversion of a stream that does not fail: why it fails. -/
theorem transcode_fails (u : GUtf8 m c) (room : Nat) (u1 : GUtf8 m c) (h : u.transcode room = (.err .streamError, u1)) :
    u1 = u ∧ (iconvLoop c ((u.mem.take u.fin).drop u.pos).length u.state ((u.mem.take u.fin).drop u.pos) room).status = .invalid := by
  unfold GUtf8.transcode at h
  simp only at h
  split at h
  · rename_i hs
    simp only [Prod.mk.injEq, true_and] at h
    exact ⟨h.symm, hs⟩
  all_goals
    simp only [Prod.mk.injEq] at h
    cases h.1

theorem turn_keeps {B : Nat} (u : GUtf8 m c) (data : Bytes) (room : Nat) (hw : u.Within B) (hd : SuppliesTo B m u.inner data) :
    (u.turn room).2.isUtf8 = u.isUtf8 ∧ (u.turn room).2.rest = u.rest ∧
      (u.isUtf8 = false → u.rest = [] → (u.turn room).1 = .err .streamError → (u.turn room).2.Stuck room) := by
  have go : ∀ u : GUtf8 m c, u.shouldFill = false →
      ((match u.transcode room with
        | (.ok b, u') => (Res.ok (some b), u')
        | (.err e, u') => (.err e, u')
        | (.ub w, u') => (.ub w, u')) : Res (Option Bytes) × GUtf8 m c).2.isUtf8 = u.isUtf8 ∧
      ((match u.transcode room with
        | (.ok b, u') => (Res.ok (some b), u')
        | (.err e, u') => (.err e, u')
        | (.ub w, u') => (.ub w, u')) : Res (Option Bytes) × GUtf8 m c).2.rest = u.rest ∧
      (u.isUtf8 = false → u.rest = [] → ((match u.transcode room with
        | (.ok b, u') => (Res.ok (some b), u')
        | (.err e, u') => (.err e, u')
        | (.ub w, u') => (.ub w, u')) : Res (Option Bytes) × GUtf8 m c).1 = .err .streamError →
        ((match u.transcode room with
        | (.ok b, u') => (Res.ok (some b), u')
        | (.err e, u') => (.err e, u')
        | (.ub w, u') => (.ub w, u')) : Res (Option Bytes) × GUtf8 m c).2.Stuck room) := by
    intro u hs
    have hk := transcode_keeps u room
    have hf := transcode_fails u room
    generalize u.transcode room = t at hk hf
    obtain ⟨b | e | w, u'⟩ := t
    · exact ⟨hk.1, hk.2, fun _ _ h => by cases h⟩
    · refine ⟨hk.1, hk.2, fun h8 hr h => ?_⟩
      cases h
      obtain ⟨rfl, hi⟩ := hf u' rfl
      exact ⟨hr, h8, Or.inl ⟨hs, fun room' h1 _ => iconvLoop_invalid c _ _ _ _ _ h1 hi⟩⟩
    · exact ⟨hk.1, hk.2, fun _ _ h => by cases h⟩
  unfold GUtf8.turn
  simp only
  by_cases hs : u.shouldFill = true
  · rw [if_pos hs]
    have hk := refill_keeps u
    have hr : u.refill.1 = .ok (some ()) → u.refill.2.shouldFill = false := by
      unfold GUtf8.refill
      split
      · intro h; cases h
      · intro h; cases h
      · simp only
        split
        · split <;> (intro h; cases h)
        · intro _; rfl
    have he : u.refill.1 = .err .streamError → u.refill.2.shouldFill = true ∧ u.refill.2.fin = u.refill.2.pos ∧ u.refill.2.pos ≠ 0 := by
      obtain ⟨b, e, s', data', tr, h1, _⟩ :=
        gFill_simB m B (u.fin - u.pos) u.inner data (u.fin - u.pos) (Nat.le_refl _) (by have := hw.fin; omega) hd
      unfold GUtf8.refill
      rw [h1]
      simp only
      split
      · rename_i hb
        split
        · rename_i hp
          intro _
          exact ⟨hs, by simp only [hb, Nat.add_zero], hp⟩
        · intro h; cases h
      · intro h; cases h
    generalize u.refill = q at hk hr he
    obtain ⟨(_ | _) | e | w, u'⟩ := q
    · exact ⟨hk.1, hk.2, fun _ _ h => by cases h⟩
    · obtain ⟨g1, g2, g3⟩ := go u' (hr rfl)
      simp only at hk
      exact ⟨g1.trans hk.1, g2.trans hk.2, fun a b => g3 (hk.1.trans a) (hk.2.trans b)⟩
    · refine ⟨hk.1, hk.2, fun a b h => ?_⟩
      simp only at h hk he
      cases h
      exact ⟨hk.2.trans b, hk.1.trans a, Or.inr (he rfl)⟩
    · exact ⟨hk.1, hk.2, fun _ _ h => by cases h⟩
  · rw [if_neg hs]
    exact go u (by simpa using hs)

theorem convert_keeps {B : Nat} (room fuel : Nat) : ∀ (u : GUtf8 m c) (data : Bytes), u.Within B → SuppliesTo B m u.inner data →
    (u.convert fuel room).2.isUtf8 = u.isUtf8 ∧ (u.convert fuel room).2.rest = u.rest ∧
      (u.isUtf8 = false → u.rest = [] → (u.convert fuel room).1 = .err .streamError → (u.convert fuel room).2.Stuck room) := by
  induction fuel with
  | zero => intro u data _ _; exact ⟨rfl, rfl, fun _ _ h => by cases h⟩
  | succ fuel ih =>
    intro u data hw hd
    obtain ⟨o, u1, data1, tr, h1, h2, h3, h4, _⟩ := turn_sim u data room hw hd
    have hk := turn_keeps u data room hw hd
    unfold GUtf8.convert
    rw [h1] at hk ⊢
    obtain ⟨k1, k2, k3⟩ := hk
    simp only at k1 k2 k3
    rcases o with (_ | b) | e | w
    · exact ⟨k1, k2, fun _ _ h => by cases h⟩
    · simp only
      split
      · obtain ⟨g1, g2, g3⟩ := ih u1 data1 h4 h2
        exact ⟨g1.trans k1, g2.trans k2, fun a b => g3 (k1.trans a) (k2.trans b)⟩
      · exact ⟨k1, k2, fun _ _ h => by cases h⟩
    · refine ⟨k1, k2, fun a b h => k3 a b ?_⟩
      simp only at h
      cases h
      rfl
    · exact ⟨k1, k2, fun _ _ h => by cases h⟩

/-- One read. -/
theorem uread_keeps {B : Nat} (fuel : Nat) (u : GUtf8 m c) (data : Bytes) (n : Nat) (hn : 0 < n) (hw : u.Within B)
    (hd : SuppliesTo B m u.inner data) (h8 : u.isUtf8 = false) :
    (u.read fuel n).2.isUtf8 = false ∧ (∃ data', SuppliesTo B m (u.read fuel n).2.inner data') ∧ (u.read fuel n).2.Within B ∧
      ((u.read fuel n).1 = .err .streamError → (u.read fuel n).2.Stuck n) := by
  unfold GUtf8.read
  rw [if_neg (by omega)]
  by_cases hr : u.rest.isEmpty = true
  · rw [if_pos hr, if_neg (by simp [h8])]
    have hr' : u.rest = [] := by simpa using hr
    by_cases h4 : n ≥ 4
    · rw [if_pos h4]
      obtain ⟨o, u', data', tr, g1, g2, g3, g4, _⟩ := convert_sim n fuel u data hw hd
      obtain ⟨k1, k2, k3⟩ := convert_keeps n fuel u data hw hd
      rw [g1] at k1 k2 k3 ⊢
      exact ⟨k1.trans h8, ⟨data', g2⟩, g4, k3 h8 hr'⟩
    · rw [if_neg h4]
      obtain ⟨o, u', data', tr, g1, g2, g3, g4, _⟩ := convert_sim 4 fuel u data hw hd
      obtain ⟨k1, k2, k3⟩ := convert_keeps 4 fuel u data hw hd
      rw [g1] at k1 k2 k3 ⊢
      simp only at k1 k2 k3
      rcases o with b | e | w
      · simp only
        split
        · exact ⟨k1.trans h8, ⟨data', g2⟩, g4, fun h => by cases h⟩
        · exact ⟨k1.trans h8, ⟨data', g2⟩, ⟨g4.fin, g4.pos⟩, fun h => by cases h⟩
      · refine ⟨k1.trans h8, ⟨data', g2⟩, g4, fun h => ?_⟩
        simp only at h ⊢
        obtain ⟨s1, s2, s3⟩ := k3 h8 hr' h
        exact ⟨s1, s2, s3.imp (fun s => ⟨s.1, fun room _ b => s.2 room b b⟩) id⟩
      · exact ⟨k1.trans h8, ⟨data', g2⟩, g4, fun h => by cases h⟩
  · rw [if_neg hr]
    exact ⟨h8, ⟨data, hd⟩, ⟨hw.fin, hw.pos⟩, fun h => by cases h⟩

end

/-! ## The streams that `make_utf8_stream` returns -/

section
variable {m : InStream} {codec : String → Codec}

/-- A converting stream over one that does not fail, for text that is faulty behind `x`. -/
def FaultyText (B : Nat) (m : InStream) (codec : String → Codec) (fuel : Nat) (t : GText m codec) (x : Bytes) : Prop :=
  (∃ name u, t = .wrapped name u ∧ u.isUtf8 = false ∧ u.Within B ∧ ∃ data, SuppliesTo B m u.inner data) ∧
  ∀ ns, (∀ n ∈ ns, n ≤ B) → TextReads true x ns ((textOver m codec fuel).reads t ns)

/-- See `GUtf8.Stuck`. -/
def StuckText (k : Nat) : GText m codec → Prop
  | .same _ => False
  | .wrapped _ u => u.Stuck k

theorem faulty_step {B : Nat} (fuel : Nat) (t : GText m codec) (x : Bytes) (n : Nat) (h : FaultyText B m codec fuel t x) (h0 : 0 < n)
    (hn : n ≤ B) : (∃ t1, (textOver m codec fuel).read t n = (.err .streamError, t1) ∧ StuckText n t1) ∨
      ∃ got x' t1, (textOver m codec fuel).read t n = (.ok got, t1) ∧ x = got ++ x' ∧ got ≠ [] ∧ got.length ≤ n ∧
        FaultyText B m codec fuel t1 x' := by
  obtain ⟨⟨name, u, rfl, h8, hw, data, hd⟩, hr⟩ := h
  obtain ⟨k1, k2, k3, k4⟩ := uread_keeps fuel u data n h0 hw hd h8
  have hcons : ∀ ns, (textOver m codec fuel).reads (.wrapped name u) (n :: ns) =
      (u.read fuel n).1 :: (textOver m codec fuel).reads (.wrapped name (u.read fuel n).2) ns := fun _ => rfl
  have hread : (textOver m codec fuel).read (.wrapped name u) n = ((u.read fuel n).1, .wrapped name (u.read fuel n).2) := rfl
  have h1 := hr [n] (by simpa using hn)
  rw [hcons] at h1
  rcases textReads_cons.1 h1 with ⟨got, x', g1, rfl, g2, g3, _⟩ | ⟨g1, _⟩
  · right
    refine ⟨got, x', _, by rw [hread, g1], rfl, ?_, g2, ⟨name, _, rfl, k1, k3, k2⟩, fun ns hns => ?_⟩
    · intro hg
      rcases g3 hg with h | h
      · omega
      · cases h.2
    · have := hr (n :: ns) (by
        intro k hk
        rcases List.mem_cons.1 hk with rfl | hk
        · exact hn
        · exact hns k hk)
      rw [hcons, g1] at this
      rcases textReads_cons.1 this with ⟨y, x2, e1, e2, _, _, h⟩ | ⟨h, _⟩
      · cases e1
        rw [List.append_cancel_left e2]
        exact h
      · cases h
  · left
    exact ⟨.wrapped name (u.read fuel n).2, by rw [hread, g1], k4 g1⟩

theorem stuckText_read (fuel : Nat) (t : GText m codec) (k n : Nat) (h : StuckText k t) (hk : k ≤ n) (h0 : 0 < n) :
    ∃ t1, (textOver m codec (fuel + 1)).read t n = (.err .streamError, t1) ∧ StuckText k t1 := by
  match t, h with
  | .wrapped name u, h =>
    obtain ⟨u1, g1, g2⟩ := GUtf8.Stuck.read h fuel n hk h0
    exact ⟨.wrapped name u1, by simp only [textOver, g1], g2⟩

theorem stuckText_weaken (t : GText m codec) (k n : Nat) (h : StuckText k t) (hk : k ≤ n) : StuckText n t := by
  match t, h with
  | .wrapped name u, ⟨h1, h2, h3⟩ =>
    exact ⟨h1, h2, h3.imp (fun h => ⟨h.1, fun room a b => h.2 room (by omega) b⟩) id⟩

end

theorem wrapText_flag {codec : String → Codec} {m : SrcClass} {cap : Nat} {s : m.σ} {p : Bytes} {name n : String}
    {u : GUtf8 m.toInStream (codec n)} (h : wrapText codec m cap s p name = .ok (.wrapped n u)) : u.isUtf8 = (n == encUtf8) := by
  unfold wrapText at h
  split at h
  · cases h
    unfold GUtf8.setPreamble
    split <;> rfl
  · cases h
    rfl
  · cases h
  · cases h

theorem makeText_flag {codec : String → Codec} {m : SrcClass} {cap : Nat} {s : m.σ} {name : String}
    {u : GUtf8 m.toInStream (codec name)} (h : makeText codec m cap s none = .ok (.wrapped name u)) :
    u.isUtf8 = (name == encUtf8) := by
  unfold makeText at h
  simp only at h
  split at h
  · cases h
  · cases h
  · split at h
    · split at h
      · exact wrapText_flag h
      · cases h
      · cases h
      · cases h
    · exact wrapText_flag h

/-! ## Data stores -/

theorem garbled_hasMark (cs : List Char) (be wide : Bool) (junk : Bytes)
    (h0 : wide = false → be = false → cs.head? ≠ some (Char.ofNat 0)) (hj : wide = false → ∀ ch, ¬ encode16 be ch <+: junk) :
    HasMark ((Char.ofNat 0xFEFF :: cs).flatMap (if wide then encode32 be else encode16 be) ++ junk) (unicodeName be wide) := by
  have hm := unicode_hasMark cs be wide h0
  cases wide with
  | true =>
    simp only [if_true] at hm ⊢
    cases be
    · exact .utf32le _ ⟨cs.flatMap (encode32 false) ++ junk, rfl⟩
    · exact .utf32be _ ⟨cs.flatMap (encode32 true) ++ junk, rfl⟩
  | false =>
    simp only [Bool.false_eq_true, if_false] at hm ⊢
    cases be
    · refine .utf16le _ ⟨cs.flatMap (encode16 false) ++ junk, rfl⟩ ?_
      intro hp
      rcases cs with _ | ⟨d, ds⟩
      · obtain ⟨t, ht⟩ := hp
        refine hj rfl (Char.ofNat 0) ⟨t, ?_⟩
        have e1 : encode16 false (Char.ofNat 0xFEFF) = [0xFF, 0xFE] := rfl
        have e2 : encode16 false (Char.ofNat 0) = [0, 0] := rfl
        simp only [List.flatMap_cons, List.flatMap_nil, e1, bomUtf32le, List.cons_append, List.nil_append, List.cons.injEq,
          true_and] at ht
        rw [e2, ← ht]
        rfl
      · have hlen : 4 ≤ ((Char.ofNat 0xFEFF :: d :: ds).flatMap (encode16 false)).length := by
          have e1 : encode16 false (Char.ofNat 0xFEFF) = [0xFF, 0xFE] := rfl
          have e2 : 2 ≤ (encode16 false d).length := by
            unfold encode16
            split <;> simp [unit16]
          simp only [List.flatMap_cons, e1, List.length_append, List.length_cons, List.length_nil]
          omega
        have : bomUtf32le <+: (Char.ofNat 0xFEFF :: d :: ds).flatMap (encode16 false) :=
          List.prefix_of_prefix_length_le hp (List.prefix_append _ _) hlen
        generalize (Char.ofNat 0xFEFF :: d :: ds).flatMap (encode16 false) = x at hm this
        have hn : unicodeName false false = "UTF-16LE" := rfl
        rw [hn] at hm
        generalize hg : "UTF-16LE" = name at hm
        cases hm with
        | utf16le _ hno => exact hno this
        | _ => exact absurd hg (by decide)
    · exact .utf16be _ ⟨cs.flatMap (encode16 true) ++ junk, rfl⟩

/-- A wide text followed by what is not text: `make_utf8_stream` on it. -/
theorem garbled_stored (cs : List Char) (junk : Bytes) (seekable : Bool) (sched : List Nat) (be wide : Bool)
    (hs : seekable = true ∨
      4 < ((Char.ofNat 0xFEFF :: cs).flatMap (if wide then encode32 be else encode16 be) ++ junk).length)
    (h0 : wide = false → be = false → (cs.flatMap encode8).head? ≠ some 0) (hne : junk ≠ [])
    (hj : ∀ ch, ¬ (if wide then encode32 be else encode16 be) ch <+: junk) :
    ∃ u, makeUtf8Stream unicodeCodec utf8BufferSize
        ((Char.ofNat 0xFEFF :: cs).flatMap (if wide then encode32 be else encode16 be) ++ junk) seekable sched none =
          .ok (.wrapped (unicodeName be wide) u) ∧
      ∀ ns, TextReads true (utf8Bom ++ cs.flatMap encode8) ns (TextStream.reads (.wrapped (unicodeName be wide) u) ns) := by
  have h0' : wide = false → be = false → cs.head? ≠ some (Char.ofNat 0) := by
    intro a b hc
    apply h0 a b
    cases cs with
    | nil => cases hc
    | cons c cs =>
      simp only [List.head?_cons, Option.some.injEq] at hc
      subst hc
      rfl
  have hm := garbled_hasMark cs be wide junk h0' (fun hw => by subst hw; exact hj)
  obtain ⟨e, he, hd⟩ : ∃ e, e ≠ .clean ∧ Decodes (unicodeCodec (unicodeName be wide)) (unicodeCodec (unicodeName be wide)).init
      ((Char.ofNat 0xFEFF :: cs).flatMap (if wide then encode32 be else encode16 be) ++ junk)
      ((Char.ofNat 0xFEFF :: cs).flatMap encode8) e := by
    have w16 : ∀ be, (∀ ch, ¬ encode16 be ch <+: junk) → ∃ e, e ≠ .clean ∧ Decodes (codec16 be) ()
        ((Char.ofNat 0xFEFF :: cs).flatMap (encode16 be) ++ junk) ((Char.ofNat 0xFEFF :: cs).flatMap encode8) e := by
      intro be hj
      obtain ⟨e, h1, h2⟩ := decodes_junk (c := codec16 be) (s := ()) hne (fun n out s' hx => by
        obtain ⟨ch, h⟩ := step16_char be junk out n s' hx
        exact hj ch h)
      exact ⟨e, h1, decodes16_junk be junk e h2 _⟩
    have w32 : ∀ be, (∀ ch, ¬ encode32 be ch <+: junk) → ∃ e, e ≠ .clean ∧ Decodes (codec32 be) ()
        ((Char.ofNat 0xFEFF :: cs).flatMap (encode32 be) ++ junk) ((Char.ofNat 0xFEFF :: cs).flatMap encode8) e := by
      intro be hj
      obtain ⟨e, h1, h2⟩ := decodes_junk (c := codec32 be) (s := ()) hne (fun n out s' hx => by
        obtain ⟨ch, h⟩ := step32_char be junk out n s' hx
        exact hj ch h)
      exact ⟨e, h1, decodes32_junk be junk e h2 _⟩
    cases be <;> cases wide
    · exact w16 false hj
    · exact w32 false hj
    · exact w16 true hj
    · exact w32 true hj
  obtain ⟨t, h1, h2⟩ := C46_convert_partial unicodeCodec _ seekable sched (unicodeName be wide) none
    (by cases be <;> cases wide <;> decide) (unicodeCodec_lawful _) (Or.inr ⟨rfl, hm, hs⟩) _ e hd
  obtain ⟨t', g1, g2⟩ := C46_detect unicodeCodec _ seekable sched
  rw [h1] at g1
  cases g1
  obtain ⟨u, hu, _⟩ := (g2 _).1 hm
  subst hu
  refine ⟨u, h1, fun ns => ?_⟩
  have := h2 ns
  rw [show (e != .clean) = true by cases e <;> first | rfl | exact absurd rfl he] at this
  exact this

/-- The text stream over a data store whose text is not well formed. -/
theorem garbled_open {z : Inflater} {w : World} {safe : Prop} {enc : Encoding} {text : Bytes} {st : Store}
    (h : GarbledText z w safe enc text st) : ∃ s part fuel0, st.openRead z w = .ok s ∧ part <+: text ∧
      ∃ name u, makeText unicodeCodec (storeSrc z) chunkSize s none = .ok (.wrapped name u) ∧
        ∀ fuel, fuel0 ≤ fuel →
          FaultyText (2 ^ 32 - 1) (storeSrc z).toInStream unicodeCodec fuel (.wrapped name u) (utf8Bom ++ part) := by
  obtain ⟨hwide, ⟨part, file, junk, hst, henc, hpart, ⟨hne, hj⟩, hlong⟩, hsize, hz, hfits⟩ := h
  obtain ⟨s, h1, h2⟩ := store_source hst
  have hseek : (st.compression == .none) = true ∨ 4 < (file ++ junk).length := hlong.imp (fun h => by rw [h]; rfl) id
  obtain ⟨be, wide, hs⟩ : ∃ be wide, ∀ sched, ∃ u : Utf8Stream (unicodeCodec (unicodeName be wide)),
      makeUtf8Stream unicodeCodec utf8BufferSize (file ++ junk)
        (st.compression == .none) sched none = .ok (.wrapped (unicodeName be wide) u) ∧
      ∀ ns, TextReads true (utf8Bom ++ part) ns (TextStream.reads (.wrapped (unicodeName be wide) u) ns) := by
    cases enc with
    | utf8 => exact absurd rfl hwide.1
    | utf8Mark => exact absurd rfl hwide.2
    | utf16 be =>
      obtain ⟨cs, rfl, rfl⟩ := henc
      refine ⟨be, false, fun sched => garbled_stored cs junk _ sched be false hseek (fun _ hb => ?_) hne hj⟩
      subst hb
      intro hx
      apply hz rfl
      obtain ⟨r, rfl⟩ := hpart
      rw [List.head?_append, hx]
      rfl
    | utf32 be =>
      obtain ⟨cs, rfl, rfl⟩ := henc
      exact ⟨be, true, fun sched => garbled_stored cs junk _ sched be true hseek (by simp) hne hj⟩
  obtain ⟨t, data, tr, g1, g2, g3, g4, g5, g6⟩ := makeText_sim (codec := unicodeCodec) (cap := chunkSize) (by decide) (by decide)
    (storeSrc z) _ _ _ s h2 none
  obtain ⟨u0, k1, k2⟩ := hs (tr ++ [])
  have hk := g6 []
  rw [show chunkSize = utf8BufferSize from rfl, k1] at hk
  have hk := Res.ok.inj hk
  cases t with
  | same s' => simp [GText.conc] at hk
  | wrapped name u =>
    have hname : name = unicodeName be wide := by
      simp only [GText.conc] at hk
      injection hk with a b
      exact a.symm
    refine ⟨s, part, (file ++ junk).length + 2, h1, hpart, name, u, g1, fun fuel hf => ⟨⟨name, u, rfl, ?_, g4, data, g2⟩, ?_⟩⟩
    · rw [makeText_flag g1, hname]
      cases be <;> cases wide <;> decide
    · intro ns hns
      refine treads_sim fuel true ns _ data _ hns g4 g2 (by omega) (fun sched => ?_)
      obtain ⟨u1, e1, e2⟩ := hs (tr ++ sched)
      have := g6 sched
      rw [show chunkSize = utf8BufferSize from rfl, e1] at this
      rw [← Res.ok.inj this]
      exact e2 ns

/-- The rows of a data store whose text is not well formed. -/
theorem garbled_lines {z : Inflater} {w : World} {safe : Prop} {enc : Encoding} {text : Bytes} {st : Store}
    (h : GarbledText z w safe enc text st) (p : CsvParams) (hsafe : safe → CrlfOk p text) (hb : MarkFree p text) {rows : List Bytes}
    (hr : RowsOf p text rows) : LinesFail z w st p rows .streamError := by
  obtain ⟨s, part, fuel0, h1, ⟨rest, hrest⟩, name, u, h2, h3⟩ := garbled_open h
  have hsize := h.size
  have hlen : (utf8Bom ++ text).length = text.length + 3 := by
    simp only [utf8Bom, List.length_append, List.length_cons, List.length_nil]
    omega
  refine ⟨s, fuel0 + text.length + 6, h1, fun fuel hf => Or.inr ?_⟩
  obtain ⟨fuel, rfl⟩ : ∃ k, fuel = k + 1 := ⟨fuel - 1, by omega⟩
  have hP := h3 (fuel + 1) (by omega)
  obtain ⟨R, f1, _, f3⟩ := patched_follows (B := 2 ^ 32 - 1) (e := .streamError)
    (m := textOver (storeSrc z).toInStream unicodeCodec (fuel + 1))
    (FaultyText (2 ^ 32 - 1) (storeSrc z).toInStream unicodeCodec (fuel + 1)) StuckText
    (fun t x n h h0 hn => faulty_step (fuel + 1) t x n h h0 hn)
    (fun t k n h hk h0 _ => stuckText_read fuel t k n h hk h0) (fun t k n h hk => stuckText_weaken t k n h hk)
  obtain ⟨g1, g2⟩ := f3 (.wrapped name u) (utf8Bom ++ part) rest hP
  rw [List.append_assoc, hrest] at g1 g2
  have hgood : (utf8Bom ++ text).length < chunkSize ∨ CsvGood p (utf8Bom ++ text) := by
    rcases h.fits with h | h
    · left
      rw [hlen]
      exact h
    · right
      exact ⟨crlf_bom (h.elim hsafe Or.inl), Or.inr ⟨text, rfl, hb⟩⟩
  have hrows := rowsOf_bom hb.start hr
  have hread : ∀ n, ((GReader.init chunkSize (.wrapped name u) :
      GReader (textOver (storeSrc z).toInStream unicodeCodec (fuel + 1))).over
      (m' := patched (textOver (storeSrc z).toInStream unicodeCodec (fuel + 1))) (some (.wrapped name u), utf8Bom ++ text)).readN
        (csvDecode p) (fuel + 1) n =
      ((rows.map fun b => (⟨0, b⟩ : Record)).map (fun r => Res.ok (some r)) ++ List.replicate n (Res.ok none)).take n := by
    intro n
    rw [← hrows n]
    refine greader_readN_to (m := patched (textOver (storeSrc z).toInStream unicodeCodec (fuel + 1))) (csv_tame p) chunkSize
      (fuel + 1) n (some (.wrapped name u), utf8Bom ++ text) (utf8Bom ++ text) (2 ^ 32 - 1) (by decide) (by decide)
      (by omega) (by omega) g2 (by omega) _ (fun sched => ?_) ?_ ?_
    · rcases hgood with hc | hc
      · exact small_readN _ (csvDecode_nil p) _ _ hc _ _
      · exact csv_readN p (utf8Bom ++ text) chunkSize (by decide) sched n hc
    · intro hx
      rw [hrows n] at hx
      obtain ⟨r, hr⟩ := rows_outcome hx
      cases hr
    · intro w hx
      rw [hrows n] at hx
      obtain ⟨r, hr⟩ := rows_outcome hx
      cases hr
  obtain ⟨k, k1, k2⟩ := readN_follows f1 (csv_tame p) (D := (utf8Bom ++ text).length) (by omega) (by omega) fuel
    (rows.map fun b => ⟨0, b⟩)
    (GReader.init chunkSize (.wrapped name u) : GReader (textOver (storeSrc z).toInStream unicodeCodec (fuel + 1)))
    (some (.wrapped name u), utf8Bom ++ text) (utf8Bom ++ text) g1 rfl (show 0 < chunkSize by decide)
    ⟨g2.capped (by omega), by simp [GReader.over, GReader.init], by simp [GReader.over, GReader.init, chunkSize]⟩ hread
  refine ⟨.stream (GReader.init chunkSize (.wrapped name u)), k, ?_, by simpa using k1, fun n => ?_⟩
  · unfold openLines
    rw [h2]
  · rw [lineMachine_stream_outs, k2 n, ← List.map_take]

end Mlio
