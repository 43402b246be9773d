import Verif.Spec.TextSource
import Verif.Proofs.Supplies
import Verif.Proofs.Utf8Stream

/-!
# UTF-8 conversion of any input stream: proofs

As for record readers (`Verif/Proofs/InputStream.lean`): the conversion of a stream that delivers `data` does the same as the
conversion of the abstract `Stream` with `data` and a suitable schedule of short reads.
-/

namespace Mlio
open Spec

theorem stream_read_exact (data x data1 : Bytes) (r : Nat) (hd : data = x ++ data1) (hl : x.length ≤ r)
    (hx : x = [] → r = 0 ∨ data = []) (tr : List Nat) : Stream.read ⟨data, x.length :: tr⟩ r = (x, ⟨data1, tr⟩) := by
  by_cases h0 : x = []
  · subst h0
    simp only [List.nil_append] at hd
    subst hd
    rcases hx rfl with rfl | rfl <;> simp [Stream.read]
  · have hp : 0 < x.length := List.length_pos_iff.2 h0
    have hm : min r (max x.length 1) = x.length := by omega
    simp only [Stream.read, hm]
    rw [hd, List.take_left, List.drop_left]

theorem afterReads_cons (m : InStream) (s : m.σ) (n : Nat) (ns : List Nat) : afterReads m s (n :: ns) = afterReads m (m.read s n).2 ns := rfl

theorem gFill_simB (m : InStream) (B fuel : Nat) : ∀ (s : m.σ) (data : Bytes) (r : Nat), r ≤ fuel → r ≤ B →
    SuppliesTo B m s data →
    ∃ b e s' data' tr, gFill m fuel s r = (.ok (b, e), s') ∧ SuppliesTo B m s' data' ∧ data = b ++ data' ∧ b.length ≤ r ∧
      (∃ ns, (∀ n ∈ ns, n ≤ B) ∧ s' = afterReads m s ns) ∧
      ∀ rest, fillLoop fuel ⟨data, tr ++ rest⟩ r = some (b, ⟨data', rest⟩, e) := by
  induction fuel with
  | zero =>
    intro s data r hr _ hd
    have : r = 0 := by omega
    subst this
    exact ⟨[], false, s, data, [], by simp [gFill], hd, rfl, by simp, ⟨[], by simp, rfl⟩, fun rest => by simp [fillLoop]⟩
  | succ fuel ih =>
    intro s data r hr hB hd
    by_cases h0 : r = 0
    · subst h0
      exact ⟨[], false, s, data, [], by simp [gFill], hd, rfl, by simp, ⟨[], by simp, rfl⟩, fun rest => by simp [fillLoop]⟩
    · obtain ⟨x, data1, h1, h2, h3, h4, h5⟩ := hd.step (n := r) hB
      generalize hrd : m.read s r = os1 at h1 h5
      obtain ⟨o, s1⟩ := os1
      simp only at h1 h5
      subst h1
      have hrd2 : ∀ rest, Stream.read ⟨data, x.length :: rest⟩ r = (x, ⟨data1, rest⟩) :=
        fun rest => stream_read_exact data x data1 r h2 h3 h4 rest
      by_cases hx : x = []
      · subst hx
        refine ⟨[], true, s1, data1, [0], ?_, h5, h2, by simp, ⟨[r], by simpa using hB, ?_⟩, fun rest => ?_⟩
        · simp [gFill, h0, hrd]
        · simp [afterReads, hrd]
        · have := hrd2 rest
          simp only [List.length_nil] at this
          simp [fillLoop, h0, this]
      · have hlen : 0 < x.length := List.length_pos_iff.2 hx
        obtain ⟨b, e, s2, data2, tr, g1, g2, g3, g4, ⟨ns, g5, g6⟩, g7⟩ := ih s1 data1 (r - x.length) (by omega) (by omega) h5
        refine ⟨x ++ b, e, s2, data2, x.length :: tr, ?_, g2, by rw [h2, g3, List.append_assoc],
          by simp only [List.length_append]; omega, ⟨r :: ns, ?_, ?_⟩, fun rest => ?_⟩
        · simp only [gFill, if_neg h0, hrd, if_neg (show ¬ x.length = 0 by omega), g1]
        · intro n hn
          rcases List.mem_cons.1 hn with rfl | hn
          · exact hB
          · exact g5 n hn
        · rw [afterReads_cons, hrd]; exact g6
        · simp only [fillLoop, if_neg h0, List.cons_append, hrd2, if_neg (show ¬ x.length = 0 by omega), g7]

variable {m : InStream} {c : Codec}

/-- The conversion of the abstract stream. -/
def GUtf8.conc (u : GUtf8 m c) (data : Bytes) (sched : List Nat) : Utf8Stream c :=
  ⟨⟨data, sched⟩, u.isUtf8, u.mem, u.pos, u.fin, u.shouldFill, u.rest, u.state⟩

/-- It never asks for more than `B` bytes on its own account. -/
structure GUtf8.Within (B : Nat) (u : GUtf8 m c) : Prop where
  fin : u.fin ≤ B
  pos : u.pos ≤ B

theorem iconvLoop_left (c : Codec) (fuel : Nat) : ∀ (s : c.σ) (inp : Bytes) (room : Nat),
    (iconvLoop c fuel s inp room).left.length ≤ inp.length := by
  induction fuel with
  | zero => intro s inp room; simp [iconvLoop]
  | succ fuel ih =>
    intro s inp room
    unfold iconvLoop
    split
    · simp
    · split
      · simp
      · simp
      · split
        · refine Nat.le_trans (ih _ _ _) ?_
          simp
        · simp

theorem transcode_conc (u : GUtf8 m c) (data : Bytes) (sched : List Nat) (room : Nat) :
    (u.conc data sched).transcode room = ((u.transcode room).1, (u.transcode room).2.conc data sched) ∧
      (u.transcode room).2.inner = u.inner := by
  unfold GUtf8.transcode Utf8Stream.transcode
  simp only [GUtf8.conc]
  cases (iconvLoop c ((u.mem.take u.fin).drop u.pos).length u.state ((u.mem.take u.fin).drop u.pos) room).status <;>
    exact ⟨rfl, rfl⟩

theorem transcode_within {B : Nat} (u : GUtf8 m c) (h : u.Within B) (room : Nat) : (u.transcode room).2.Within B := by
  have hl := iconvLoop_left c ((u.mem.take u.fin).drop u.pos).length u.state ((u.mem.take u.fin).drop u.pos) room
  have hl2 : ((u.mem.take u.fin).drop u.pos).length ≤ u.fin := by simp; omega
  have := h.fin
  have := h.pos
  unfold GUtf8.transcode
  simp only
  cases (iconvLoop c ((u.mem.take u.fin).drop u.pos).length u.state ((u.mem.take u.fin).drop u.pos) room).status
  · exact ⟨h.fin, by simp⟩
  · exact ⟨h.fin, by simp only; omega⟩
  · exact ⟨h.fin, by simp only; omega⟩
  · exact h

theorem refill_sim {B : Nat} (u : GUtf8 m c) (data : Bytes) (hw : u.Within B) (hd : SuppliesTo B m u.inner data) :
    ∃ o u' data' tr, u.refill = (o, u') ∧ SuppliesTo B m u'.inner data' ∧ data'.length ≤ data.length ∧ u'.Within B ∧
      ∀ rest, (u.conc data (tr ++ rest)).refill = (o, u'.conc data' rest) := by
  obtain ⟨b, e, s', data', tr, h1, h2, h3, h4, _, h5⟩ :=
    gFill_simB m B (u.fin - u.pos) u.inner data (u.fin - u.pos) (Nat.le_refl _) (by have := hw.fin; omega) hd
  have hlen : data'.length ≤ data.length := by rw [h3, List.length_append]; omega
  have hf : u.pos + b.length ≤ B := by have := hw.fin; have := hw.pos; omega
  have hfb : ∀ rest, fillBuffer (u.conc data (tr ++ rest)).inner ((u.conc data (tr ++ rest)).fin - (u.conc data (tr ++ rest)).pos) =
      some (b, ⟨data', rest⟩) := by
    intro rest
    unfold fillBuffer
    rw [show (u.conc data (tr ++ rest)).inner = ⟨data, tr ++ rest⟩ from rfl,
      show (u.conc data (tr ++ rest)).fin = u.fin from rfl, show (u.conc data (tr ++ rest)).pos = u.pos from rfl, h5 rest]
    rfl
  unfold GUtf8.refill Utf8Stream.refill
  rw [h1]
  by_cases h0 : b.length = 0
  · by_cases hp : u.pos ≠ 0
    · refine ⟨.err .streamError, { u with inner := s', mem := overwriteFrom u.mem u.pos b, fin := u.pos + b.length },
        data', tr, by simp only [if_pos h0, if_pos hp], h2, hlen, ⟨hf, hw.pos⟩, fun rest => ?_⟩
      rw [hfb]
      simp only [if_pos h0]
      rw [if_pos (by exact hp)]
      rfl
    · refine ⟨.ok none, { u with inner := s', mem := overwriteFrom u.mem u.pos b, fin := u.pos + b.length },
        data', tr, by simp only [if_pos h0, if_neg hp], h2, hlen, ⟨hf, hw.pos⟩, fun rest => ?_⟩
      rw [hfb]
      simp only [if_pos h0]
      rw [if_neg (by exact hp)]
      rfl
  · refine ⟨.ok (some ()),
      { u with inner := s', mem := overwriteFrom u.mem u.pos b, fin := u.pos + b.length, pos := 0, shouldFill := false },
      data', tr, by simp only [if_neg h0], h2, hlen, ⟨hf, Nat.zero_le _⟩, fun rest => ?_⟩
    rw [hfb]
    simp only [if_neg h0]
    rfl

theorem turn_sim {B : Nat} (u : GUtf8 m c) (data : Bytes) (room : Nat) (hw : u.Within B) (hd : SuppliesTo B m u.inner data) :
    ∃ o u' data' tr, u.turn room = (o, u') ∧ SuppliesTo B m u'.inner data' ∧ data'.length ≤ data.length ∧ u'.Within B ∧
      ∀ rest, (u.conc data (tr ++ rest)).turn room = (o, u'.conc data' rest) := by
  have go : ∀ (u : GUtf8 m c) (data : Bytes), u.Within B → SuppliesTo B m u.inner data → ∃ o u',
      (match u.transcode room with
        | (.ok b, u') => (Res.ok (some b), u')
        | (.err e, u') => (.err e, u')
        | (.ub w, u') => (.ub w, u')) = (o, u') ∧ SuppliesTo B m u'.inner data ∧ u'.Within B ∧
      ∀ sched, (match (u.conc data sched).transcode room with
        | (.ok b, u') => (Res.ok (some b), u')
        | (.err e, u') => (.err e, u')
        | (.ub w, u') => (.ub w, u')) = (o, u'.conc data sched) := by
    intro u data hw hd
    have h1 := fun sched => (transcode_conc u data sched room).1
    have h2 := (transcode_conc u data [] room).2
    have h3 := transcode_within u hw room
    simp only [h1]
    generalize u.transcode room = t at h2 h3
    obtain ⟨o, u'⟩ := t
    simp only at h2 h3
    rw [← h2] at hd
    rcases o with b | e | w
    · exact ⟨_, u', rfl, hd, h3, fun sched => rfl⟩
    · exact ⟨_, u', rfl, hd, h3, fun sched => rfl⟩
    · exact ⟨_, u', rfl, hd, h3, fun sched => rfl⟩
  unfold GUtf8.turn Utf8Stream.turn
  simp only [show ∀ sched, (u.conc data sched).shouldFill = u.shouldFill from fun _ => rfl]
  by_cases hs : u.shouldFill = true
  · obtain ⟨o, u1, data1, tr, h1, h2, h3, h4, h5⟩ := refill_sim u data hw hd
    simp only [if_pos hs, h1, h5]
    rcases o with (_ | _) | e | w
    · exact ⟨_, u1, data1, tr, rfl, h2, h3, h4, fun rest => by rw [h5]⟩
    · obtain ⟨o2, u2, g1, g2, g3, g4⟩ := go u1 data1 h4 h2
      exact ⟨o2, u2, data1, tr, g1, g2, h3, g3, fun rest => by rw [h5]; exact g4 rest⟩
    · exact ⟨_, u1, data1, tr, rfl, h2, h3, h4, fun rest => by rw [h5]⟩
    · exact ⟨_, u1, data1, tr, rfl, h2, h3, h4, fun rest => by rw [h5]⟩
  · obtain ⟨o2, u2, g1, g2, g3, g4⟩ := go u data hw hd
    simp only [if_neg hs]
    exact ⟨o2, u2, data, [], g1, g2, Nat.le_refl _, g3, fun rest => g4 rest⟩

theorem convert_sim {B : Nat} (room fuel : Nat) : ∀ (u : GUtf8 m c) (data : Bytes), u.Within B → SuppliesTo B m u.inner data →
    ∃ o u' data' tr, u.convert fuel room = (o, u') ∧ SuppliesTo B m u'.inner data' ∧ data'.length ≤ data.length ∧ u'.Within B ∧
      ∀ rest, (u.conc data (tr ++ rest)).convert fuel room = (o, u'.conc data' rest) := by
  induction fuel with
  | zero => intro u data hw hd; exact ⟨_, u, data, [], rfl, hd, Nat.le_refl _, hw, fun rest => rfl⟩
  | succ fuel ih =>
    intro u data hw hd
    obtain ⟨o, u1, data1, tr, h1, h2, h3, h4, h5⟩ := turn_sim u data room hw hd
    unfold GUtf8.convert Utf8Stream.convert
    rw [h1]
    rcases o with (_ | b) | e | w
    · exact ⟨_, u1, data1, tr, rfl, h2, h3, h4, fun rest => by rw [h5]⟩
    · by_cases hb : b.isEmpty = true
      · obtain ⟨o2, u2, data2, tr2, g1, g2, g3, g4, g5⟩ := ih u1 data1 h4 h2
        refine ⟨o2, u2, data2, tr ++ tr2, by simp only [if_pos hb]; exact g1, g2, by omega, g4, fun rest => ?_⟩
        rw [List.append_assoc, h5]
        simp only [if_pos hb]
        exact g5 rest
      · refine ⟨_, u1, data1, tr, by simp only [if_neg hb]; rfl, h2, h3, h4, fun rest => ?_⟩
        rw [h5]
        simp only [if_neg hb]
    · exact ⟨_, u1, data1, tr, rfl, h2, h3, h4, fun rest => by rw [h5]⟩
    · exact ⟨_, u1, data1, tr, rfl, h2, h3, h4, fun rest => by rw [h5]⟩

theorem convert_mono (room fuel k : Nat) : ∀ u : Utf8Stream c, (u.convert fuel room).1 ≠ .err .diverges →
    u.convert (fuel + k) room = u.convert fuel room := by
  induction fuel with
  | zero => intro u h; exact absurd rfl h
  | succ fuel ih =>
    intro u h
    rw [Nat.add_right_comm]
    unfold Utf8Stream.convert at h ⊢
    generalize u.turn room = q at h
    obtain ⟨(_ | b) | e | w, u'⟩ := q
    · rfl
    · simp only at h ⊢
      by_cases hb : b.isEmpty = true
      · rw [if_pos hb] at h ⊢
        rw [if_pos hb]
        exact ih _ h
      · rw [if_neg hb, if_neg hb]
    · rfl
    · rfl

theorem uread_sim {B : Nat} (fuel : Nat) (u : GUtf8 m c) (data : Bytes) (n : Nat) (hn : n ≤ B) (hw : u.Within B)
    (hd : SuppliesTo B m u.inner data) (hf : data.length + 2 ≤ fuel)
    (hok : ∀ sched, ((u.conc data sched).read n).1 ≠ .err .diverges) :
    ∃ o u' data' tr, u.read fuel n = (o, u') ∧ SuppliesTo B m u'.inner data' ∧ data'.length ≤ data.length ∧ u'.Within B ∧
      ∀ rest, (u.conc data (tr ++ rest)).read n = (o, u'.conc data' rest) := by
  unfold GUtf8.read
  unfold Utf8Stream.read at hok ⊢
  simp only [show ∀ sched, (u.conc data sched).rest = u.rest from fun _ => rfl,
    show ∀ sched, (u.conc data sched).isUtf8 = u.isUtf8 from fun _ => rfl,
    show ∀ sched, (u.conc data sched).inner = ⟨data, sched⟩ from fun _ => rfl] at hok ⊢
  have copy : ∀ (u : GUtf8 m c) (data : Bytes), u.Within B → SuppliesTo B m u.inner data →
      SuppliesTo B m (u.copyRest n).2.inner data ∧ (u.copyRest n).2.Within B ∧
      ∀ sched, (u.conc data sched).copyRest n = ((u.copyRest n).1, (u.copyRest n).2.conc data sched) :=
    fun u data hw hd => ⟨hd, ⟨hw.fin, hw.pos⟩, fun sched => rfl⟩
  by_cases h0 : n = 0
  · simp only [if_pos h0]
    exact ⟨_, u, data, [], rfl, hd, Nat.le_refl _, hw, fun rest => rfl⟩
  · simp only [if_neg h0] at hok ⊢
    by_cases hr : u.rest.isEmpty = true
    · simp only [if_pos hr] at hok ⊢
      by_cases h8 : u.isUtf8 = true
      · simp only [if_pos h8]
        obtain ⟨x, data1, h1, h2, h3, h4, h5⟩ := hd.step hn
        refine ⟨.ok x, { u with inner := (m.read u.inner n).2 }, data1, [x.length], by rw [h1], h5,
          by rw [h2, List.length_append]; omega, ⟨hw.fin, hw.pos⟩, fun rest => ?_⟩
        rw [List.singleton_append, stream_read_exact data x data1 n h2 h3 h4 rest]
        rfl
      · simp only [if_neg h8] at hok ⊢
        by_cases h4 : n ≥ 4
        · simp only [if_pos h4] at hok ⊢
          obtain ⟨o, u', data', tr, g1, g2, g3, g4, g5⟩ := convert_sim n fuel u data hw hd
          refine ⟨o, u', data', tr, g1, g2, g3, g4, fun rest => ?_⟩
          rw [← g5 rest, ← convert_mono n (data.length + 2) (fuel - (data.length + 2)) _ (hok (tr ++ rest)),
            Nat.add_sub_cancel' hf]
        · simp only [if_neg h4] at hok ⊢
          obtain ⟨o, u', data', tr, g1, g2, g3, g4, g5⟩ := convert_sim 4 fuel u data hw hd
          have g6 : ∀ rest, (u.conc data (tr ++ rest)).convert (data.length + 2) 4 = (o, u'.conc data' rest) := by
            intro rest
            rw [← g5 rest, ← convert_mono 4 (data.length + 2) (fuel - (data.length + 2)) _ (by
              intro hx
              apply hok (tr ++ rest)
              generalize (u.conc data (tr ++ rest)).convert (data.length + 2) 4 = q at hx
              obtain ⟨q1, q2⟩ := q
              simp only at hx
              subst hx
              rfl), Nat.add_sub_cancel' hf]
          simp only [g1]
          rcases o with b | e | w
          · by_cases hb : b.isEmpty = true
            · refine ⟨_, u', data', tr, by simp only [if_pos hb]; rfl, g2, g3, g4, fun rest => ?_⟩
              rw [g6]
              simp only [if_pos hb]
            · obtain ⟨c1, c2, c3⟩ := copy { u' with rest := b } data' ⟨g4.fin, g4.pos⟩ g2
              refine ⟨_, _, data', tr, by simp only [if_neg hb]; rfl, c1, g3, c2, fun rest => ?_⟩
              rw [g6]
              simp only [if_neg hb]
              exact c3 rest
          · exact ⟨_, u', data', tr, rfl, g2, g3, g4, fun rest => by rw [g6]⟩
          · exact ⟨_, u', data', tr, rfl, g2, g3, g4, fun rest => by rw [g6]⟩
    · simp only [if_neg hr]
      obtain ⟨c1, c2, c3⟩ := copy u data hw hd
      exact ⟨_, _, data, [], rfl, c1, Nat.le_refl _, c2, fun rest => c3 rest⟩

/-! ## Abstract streams -/

theorem anySrc_reads (ns : List Nat) : ∀ s : AnyStream,
    anySrc.toInStream.reads s ns = (streamIn.reads s.rest ns) ∧
      ∃ rest, afterReads anySrc.toInStream s ns = { s with rest := rest } := by
  induction ns with
  | nil => intro s; exact ⟨rfl, s.rest, rfl⟩
  | cons n ns ih =>
    intro s
    obtain ⟨h1, rest, h2⟩ := ih { s with rest := (s.rest.read n).2 }
    refine ⟨?_, rest, ?_⟩
    · simp only [InStream.reads]
      exact congrArg (_ :: ·) h1
    · exact h2

theorem streamIn_supplies (s : Stream) (ns : List Nat) : TextReads false s.data ns (streamIn.reads s ns) := by
  refine (suppliesTo_of (B := ns.sum) (m := streamIn) (fun s data => s.data = data) ?_ (s := s) rfl) ns (fun n hn => ?_)
  · rintro s data n rfl _
    obtain ⟨data, sched⟩ := s
    cases sched with
    | nil =>
      refine ⟨data.take n, data.drop n, ⟨data.drop n, []⟩, rfl, by simp, by simp; omega, fun h => ?_, rfl⟩
      simpa using h
    | cons k ks =>
      refine ⟨data.take (min n (max k 1)), data.drop (min n (max k 1)), ⟨data.drop (min n (max k 1)), ks⟩, rfl, by simp, by simp; omega,
        fun h => ?_, rfl⟩
      simp only [List.take_eq_nil_iff] at h
      rcases h with h | h
      · left; omega
      · exact Or.inr h
  · induction ns with
    | nil => cases hn
    | cons k ns ih =>
      rcases List.mem_cons.1 hn with rfl | hn
      · simp
      · have := ih hn; simp only [List.sum_cons]; omega

theorem anySrc_source (B : Nat) (all : Bytes) (zc seekable : Bool) (sched : List Nat) :
    SourceOf B anySrc zc seekable all (AnyStream.new all zc seekable sched) := by
  have start : ∀ sched, AtStart B anySrc zc all (AnyStream.new all zc seekable sched) := by
    intro sched
    refine ⟨fun ns _ => ?_, ?_⟩
    · rw [(anySrc_reads ns _).1]
      exact streamIn_supplies ⟨all, sched⟩ ns
    · cases zc <;> rfl
  refine ⟨start sched, fun ns _ => ?_⟩
  obtain ⟨_, rest, h⟩ := anySrc_reads ns (AnyStream.new all zc seekable sched)
  rw [h]
  cases seekable with
  | true => exact ⟨rfl, start rest.sched⟩
  | false => exact rfl

/-! ## What `make_utf8_stream` returns -/

variable {codec : String → Codec}

/-- The stream below. -/
def GText.inner : GText m codec → m.σ
  | .same s => s
  | .wrapped _ u => u.inner

/-- Over the abstract stream. -/
def GText.conc (t : GText m codec) (data : Bytes) (sched : List Nat) : TextStream codec :=
  match t with
  | .same _ => .same ⟨data, sched⟩
  | .wrapped name u => .wrapped name (u.conc data sched)

/-- See `GUtf8.Within`. -/
def GText.Within (B : Nat) : GText m codec → Prop
  | .same _ => True
  | .wrapped _ u => u.Within B

theorem tread_sim {B : Nat} (fuel : Nat) (t : GText m codec) (data : Bytes) (n : Nat) (hn : n ≤ B) (hw : t.Within B)
    (hd : SuppliesTo B m t.inner data) (hf : data.length + 2 ≤ fuel)
    (hok : ∀ sched, ((t.conc data sched).read n).1 ≠ .err .diverges) :
    ∃ o t' data' tr, (textOver m codec fuel).read t n = (o, t') ∧ SuppliesTo B m (GText.inner t') data' ∧
      data'.length ≤ data.length ∧ GText.Within B t' ∧
      ∀ rest, (t.conc data (tr ++ rest)).read n = (o, GText.conc t' data' rest) := by
  cases t with
  | same s =>
    obtain ⟨x, data1, h1, h2, h3, h4, h5⟩ := SuppliesTo.step (s := s) hd hn
    refine ⟨.ok x, .same (m.read s n).2, data1, [x.length], by simp only [textOver, h1], h5,
      by rw [h2, List.length_append]; omega, trivial, fun rest => ?_⟩
    simp only [GText.conc, TextStream.read]
    rw [List.singleton_append, stream_read_exact data x data1 n h2 h3 h4 rest]
  | wrapped name u =>
    obtain ⟨o, u', data', tr, h1, h2, h3, h4, h5⟩ := uread_sim fuel u data n hn hw hd hf (fun sched => hok sched)
    refine ⟨o, .wrapped name u', data', tr, by simp only [textOver, h1], h2, h3, h4, fun rest => ?_⟩
    simp only [GText.conc, TextStream.read, h5]

theorem textReads_cons {f : Bool} {text : Bytes} {n : Nat} {ns : List Nat} {o : Res Bytes} {os : List (Res Bytes)} :
    TextReads f text (n :: ns) (o :: os) ↔
      (∃ x text', o = .ok x ∧ text = x ++ text' ∧ x.length ≤ n ∧ (x = [] → n = 0 ∨ (text = [] ∧ f = false)) ∧
        TextReads f text' ns os) ∨ (o = .err .streamError ∧ f = true ∧ 0 < n ∧ os.length = ns.length) := by
  constructor
  · intro h
    cases h with
    | zero _ _ _ h => exact Or.inl ⟨[], text, rfl, rfl, by simp, fun _ => Or.inl rfl, h⟩
    | more x text' _ _ _ hx hl h => exact Or.inl ⟨x, text', rfl, rfl, hl, fun e => absurd e hx, h⟩
    | done _ _ _ hf h => exact Or.inl ⟨[], [], rfl, rfl, by simp, fun _ => Or.inr ⟨rfl, hf⟩, h⟩
    | fault _ _ _ _ hf hn hl => exact Or.inr ⟨rfl, hf, hn, hl⟩
  · rintro (⟨x, text', rfl, rfl, hl, hx, h⟩ | ⟨rfl, hf, hn, hl⟩)
    · by_cases h0 : x = []
      · subst h0
        rcases hx rfl with rfl | ⟨ht, hf⟩
        · exact .zero _ _ _ h
        · simp only [List.nil_append] at ht ⊢
          subst ht
          exact .done _ _ _ hf h
      · exact .more _ _ _ _ _ h0 hl h
    · exact .fault _ _ _ _ hf hn hl

theorem reads_length (m : InStream) (ns : List Nat) : ∀ s : m.σ, (m.reads s ns).length = ns.length := by
  induction ns with
  | nil => intro s; rfl
  | cons n ns ih => intro s; simp [InStream.reads, ih]

/-- What holds of the reads over the abstract stream for every schedule holds over any stream. -/
theorem treads_sim {B : Nat} (fuel : Nat) (f : Bool) (ns : List Nat) : ∀ (t : GText m codec) (data text : Bytes),
    (∀ n ∈ ns, n ≤ B) → t.Within B → SuppliesTo B m t.inner data → data.length + 2 ≤ fuel →
    (∀ sched, TextReads f text ns ((t.conc data sched).reads ns)) →
    TextReads f text ns ((textOver m codec fuel).reads t ns) := by
  induction ns with
  | nil => intro t data text _ _ _ _ _; exact .nil _
  | cons n ns ih =>
    intro t data text hns hw hd hf hok
    have hcons : ∀ q : TextStream codec, q.reads (n :: ns) = (q.read n).1 :: (q.read n).2.reads ns := fun _ => rfl
    simp only [hcons] at hok
    obtain ⟨o, t', data', tr, h1, h2, h3, h4, h5⟩ := tread_sim fuel t data n (hns n (by simp)) hw hd hf
      (fun sched hx => by
        have := hok sched
        rw [hx] at this
        rcases textReads_cons.1 this with ⟨x, _, h, _⟩ | ⟨h, _⟩ <;> cases h)
    have hok' : ∀ rest, TextReads f text (n :: ns) (o :: (GText.conc t' data' rest).reads ns) := by
      intro rest
      have := hok (tr ++ rest)
      rwa [h5] at this
    simp only [InStream.reads, h1]
    rcases textReads_cons.1 (hok' []) with ⟨x, text', rfl, rfl, g1, g2, _⟩ | ⟨rfl, g1, g2, _⟩
    · refine textReads_cons.2 (Or.inl ⟨x, text', rfl, rfl, g1, g2, ?_⟩)
      refine ih t' data' text' (fun k hk => hns k (by simp [hk])) h4 h2 (by omega) (fun sched => ?_)
      rcases textReads_cons.1 (hok' sched) with ⟨y, text2, e, e2, _, _, h⟩ | ⟨h, _⟩
      · cases e
        rw [List.append_cancel_left e2]
        exact h
      · cases h
    · exact textReads_cons.2 (Or.inr ⟨rfl, g1, g2, reads_length _ _ _⟩)

theorem new_conc (c : Codec) (cap : Nat) (s : m.σ) (name : String) (data : Bytes) (sched : List Nat) :
    (GUtf8.new c cap s name : GUtf8 m c).conc data sched = Utf8Stream.new c cap ⟨data, sched⟩ name := rfl

theorem preamble_conc (u : GUtf8 m c) (p : Bytes) (data : Bytes) (sched : List Nat) :
    (u.setPreamble p).conc data sched = (u.conc data sched).setPreamble p := by
  unfold GUtf8.setPreamble Utf8Stream.setPreamble
  simp only [show (u.conc data sched).isUtf8 = u.isUtf8 from rfl]
  split <;> rfl

theorem new_within {B : Nat} (c : Codec) (cap : Nat) (hcap : cap ≤ B) (s : m.σ) (name : String) :
    (GUtf8.new c cap s name : GUtf8 m c).Within B := by
  refine ⟨?_, Nat.zero_le _⟩
  show (if (name == encUtf8) = true then 0 else cap) ≤ B
  split
  · exact Nat.zero_le _
  · exact hcap

theorem preamble_within {B : Nat} (u : GUtf8 m c) (p : Bytes) (hp : p.length ≤ B) (h : u.Within B) : (u.setPreamble p).Within B := by
  unfold GUtf8.setPreamble
  split
  · exact ⟨h.fin, h.pos⟩
  · exact ⟨h.fin, hp⟩

theorem setPreamble_inner (u : GUtf8 m c) (p : Bytes) : (u.setPreamble p).inner = u.inner := by
  unfold GUtf8.setPreamble
  split <;> rfl

/-- Making the stream: the result stands for the result over the abstract stream with the same contents and a schedule that
begins in a certain way. -/
theorem makeText_sim {B cap : Nat} (hB : 4 ≤ B) (hcap : cap ≤ B) (m : SrcClass) (zc seekable : Bool) (all : Bytes) (s : m.σ)
    (hs : SourceOf B m zc seekable all s) (encoding : Option String) :
    ∃ t data tr, makeText codec m cap s encoding = .ok t ∧ SuppliesTo B m.toInStream t.inner data ∧ data.length ≤ all.length ∧
      t.Within B ∧ (∀ s', t = .same s' → m.whole s' = if zc then some all else none) ∧
      ∀ rest, makeUtf8Stream codec cap all seekable (tr ++ rest) encoding = .ok (t.conc data rest) := by
  -- the end of the function
  have wrap : ∀ (ns : List Nat) (p data : Bytes) (name : String), (∀ n ∈ ns, n ≤ B) → p.length ≤ 4 →
      SuppliesTo B m.toInStream (afterReads m.toInStream s ns) data → data.length ≤ all.length →
      ∃ t data2, wrapText codec m cap (afterReads m.toInStream s ns) p name = .ok t ∧ SuppliesTo B m.toInStream t.inner data2 ∧
        data2.length ≤ all.length ∧ t.Within B ∧ (∀ s', t ≠ .same s') ∧
        ∀ rest, wrapUtf8 codec cap all seekable ⟨data, rest⟩ p name = t.conc data2 rest := by
    intro ns p data name hns hp hd hlen
    have hr := hs.rewinds ns hns
    unfold wrapText wrapUtf8
    generalize m.seek0 (afterReads m.toInStream s ns) = r at hr
    match r, hr with
    | none, hr =>
      subst hr
      refine ⟨_, data, rfl, ?_, hlen, preamble_within _ p (by omega) (new_within _ cap hcap _ _), by simp, fun rest => ?_⟩
      · show SuppliesTo B m.toInStream (GUtf8.setPreamble _ p).inner data
        rw [setPreamble_inner]
        exact hd
      · simp only [Bool.false_eq_true, if_false, GText.conc, preamble_conc, new_conc]
    | some (.ok (), s'), hr =>
      obtain ⟨rfl, hr2⟩ := hr
      refine ⟨_, all, rfl, hr2.delivers, Nat.le_refl _, new_within _ cap hcap _ _, by simp, fun rest => ?_⟩
      simp only [if_true, GText.conc, new_conc]
    | some (.err _, _), hr => exact hr.elim
    | some (.ub _, _), hr => exact hr.elim
  cases encoding with
  | some name =>
    unfold makeText makeUtf8Stream
    by_cases hn : (name == encUtf8 || name == encLatin1) = true
    · simp only [if_pos hn]
      exact ⟨_, all, [], rfl, hs.delivers, Nat.le_refl _, trivial, fun s' h => by cases h; exact hs.whole, fun rest => rfl⟩
    · simp only [if_neg hn]
      obtain ⟨t, data2, h1, h2, h3, h4, h5, h6⟩ := wrap [] [] all name (by simp) (by simp) hs.delivers (Nat.le_refl _)
      exact ⟨t, data2, [], h1, h2, h3, h4, fun s' h => absurd h (h5 s'), fun rest => congrArg Res.ok (h6 rest)⟩
  | none =>
    obtain ⟨b, e, s', data', tr, h1, h2, h3, h4, ⟨ns, h5, rfl⟩, h6⟩ :=
      gFill_simB m.toInStream B 4 s all 4 (Nat.le_refl _) hB hs.delivers
    have hlen : data'.length ≤ all.length := by rw [h3, List.length_append]; omega
    have hfb : ∀ rest, fillBuffer ⟨all, tr ++ rest⟩ 4 = some (b, ⟨data', rest⟩) := by
      intro rest
      unfold fillBuffer
      rw [h6 rest]
      rfl
    unfold makeText makeUtf8Stream
    simp only [h1, hfb]
    cases hb : inferBom b with
    | some name =>
      obtain ⟨t, data2, g1, g2, g3, g4, g5, g6⟩ := wrap ns b data' name h5 h4 h2 hlen
      exact ⟨t, data2, tr, g1, g2, g3, g4, fun s' h => absurd h (g5 s'), fun rest => by
        rw [hfb]
        simp only [hb]
        exact congrArg Res.ok (g6 rest)⟩
    | none =>
      simp only
      have hr := hs.rewinds ns h5
      have hw := wrap ns b data' encUtf8 h5 h4 h2 hlen
      generalize m.seek0 (afterReads m.toInStream s ns) = r at hr
      match r, hr with
      | none, hr =>
        subst hr
        obtain ⟨t, data2, g1, g2, g3, g4, g5, g6⟩ := hw
        exact ⟨t, data2, tr, g1, g2, g3, g4, fun s' h => absurd h (g5 s'), fun rest => by
          rw [hfb]
          simp only [hb, Bool.false_eq_true, if_false]
          exact congrArg Res.ok (g6 rest)⟩
      | some (.ok (), s'), hr =>
        obtain ⟨rfl, hr2⟩ := hr
        refine ⟨_, all, tr, rfl, hr2.delivers, Nat.le_refl _, trivial, fun s2 h => by cases h; exact hr2.whole, fun rest => ?_⟩
        rw [hfb]
        simp only [hb, if_true]
        rfl
      | some (.err _, _), hr => exact hr.elim
      | some (.ub _, _), hr => exact hr.elim

/-- The form in which this is used. -/
theorem makeText_reads {B cap : Nat} (hB : 4 ≤ B) (hcap : cap ≤ B) {m : SrcClass} {zc seekable : Bool} {all : Bytes} {s : m.σ}
    (hs : SourceOf B m zc seekable all s) (encoding : Option String) (f : Bool) (text : Bytes)
    (h : ∀ sched, ∃ t, makeUtf8Stream codec cap all seekable sched encoding = .ok t ∧ ∀ ns, TextReads f text ns (t.reads ns)) :
    ∃ t, makeText codec m cap s encoding = .ok t ∧
      (∀ s', t = .same s' → m.whole s' = if zc then some all else none) ∧
      (∃ sched data, makeUtf8Stream codec cap all seekable sched encoding = .ok (t.conc data [])) ∧
      ∀ fuel, all.length + 2 ≤ fuel → ∀ ns, (∀ n ∈ ns, n ≤ B) →
        TextReads f text ns ((textOver m.toInStream codec fuel).reads t ns) := by
  obtain ⟨t, data, tr, h1, h2, h3, h4, h5, h6⟩ := makeText_sim (codec := codec) hB hcap m zc seekable all s hs encoding
  refine ⟨t, h1, h5, ?_, fun fuel hf ns hns => treads_sim fuel f ns t data text hns h4 h2 (by omega) (fun sched => ?_)⟩
  · exact ⟨_, data, h6 []⟩
  · obtain ⟨t', g1, g2⟩ := h (tr ++ sched)
    rw [h6] at g1
    cases g1
    exact g2 ns

end Mlio
