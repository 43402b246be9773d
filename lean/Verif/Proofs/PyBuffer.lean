import Verif.Spec.PyBuffer
import Verif.Proofs.Parquet

namespace Mlio
open Spec

theorem obj_setObj (s : HoldState) (i k : Nat) (o : Option HoldObj) :
    (s.setObj i o).obj k = if i = k ∧ i < s.objs.length then o else s.obj k := by
  simp only [HoldState.obj, HoldState.setObj, List.getElem?_set]
  by_cases h : i = k
  · subst h
    by_cases h2 : i < s.objs.length
    · simp [h2]
    · simp [h2]
  · simp [h]

theorem obj_push (s : HoldState) (o : HoldObj) (k : Nat) :
    (s.push o).obj k = if k = s.objs.length then some o else s.obj k := by
  simp only [HoldState.obj, HoldState.push, List.getElem?_append]
  by_cases h : k < s.objs.length
  · have : k ≠ s.objs.length := by omega
    simp [h, this]
  · by_cases h2 : k = s.objs.length
    · subst h2; simp
    · have h3 : k - s.objs.length ≠ 0 := by omega
      have h4 : s.objs.length ≤ k := by omega
      simp [h, h2, List.getElem?_eq_none h4]
      obtain ⟨n, hn⟩ : ∃ n, k - s.objs.length = n + 1 := ⟨k - s.objs.length - 1, by omega⟩
      simp [hn]

theorem obj_lt {s : HoldState} {i : Nat} {o : HoldObj} (h : s.obj i = some o) : i < s.objs.length := by
  rcases Nat.lt_or_ge i s.objs.length with hl | hl
  · exact hl
  · simp [HoldState.obj, List.getElem?_eq_none hl] at h

theorem holdAlive_iff (s : HoldState) : s.alive = true ↔ ∃ k o, s.obj k = some o ∧ s.holds o = true := by
  simp only [HoldState.alive, List.any_eq_true, HoldState.obj]
  constructor
  · rintro ⟨x, hx, h⟩
    obtain ⟨k, hk⟩ := List.mem_iff_getElem?.mp hx
    cases x with
    | none => simp at h
    | some o => exact ⟨k, o, by simp [hk], h⟩
  · rintro ⟨k, o, hk, h⟩
    cases hg : s.objs[k]? with
    | none => simp [hg] at hk
    | some x =>
      simp [hg] at hk
      exact ⟨x, List.mem_iff_getElem?.mpr ⟨k, hg⟩, by simp [hk, h]⟩

theorem not_holdAlive_iff (s : HoldState) : s.alive = false ↔ ∀ k o, s.obj k = some o → s.holds o = false := by
  rw [← Bool.not_eq_true, holdAlive_iff]
  constructor
  · intro h k o hk
    cases hh : s.holds o with
    | false => rfl
    | true => exact absurd ⟨k, o, hk, hh⟩ h
  · rintro h ⟨k, o, hk, hh⟩
    simp [h k o hk] at hh

/-- References depend on the streams only through whether they are open. -/
theorem holds_setObj (s : HoldState) (i : Nat) (x : Option HoldObj) (o : HoldObj) :
    (s.setObj i x).holds o = s.holds o := by cases o <;> rfl

theorem holds_push (s : HoldState) (x o : HoldObj) : (s.push x).holds o = s.holds o := by cases o <;> rfl

theorem streamHolds_setStream (s : HoldState) (j : Nat) (t t' : HoldStream) (h : s.streams[j]? = some t)
    (ho : t'.isOpen = t.isOpen) (k : Nat) : (s.setStream j t').streamHolds k = s.streamHolds k := by
  simp only [HoldState.streamHolds, HoldState.setStream, List.getElem?_set]
  by_cases hk : j = k
  · subst hk
    have hl : j < s.streams.length := by
      rcases Nat.lt_or_ge j s.streams.length with hl | hl
      · exact hl
      · simp [List.getElem?_eq_none hl] at h
    simp only [hl, h, if_true]
    exact ho
  · simp [hk]

theorem holds_setStream (s : HoldState) (j : Nat) (t t' : HoldStream) (h : s.streams[j]? = some t)
    (ho : t'.isOpen = t.isOpen) (o : HoldObj) : (s.setStream j t').holds o = s.holds o := by
  cases o <;> simp [HoldState.holds, streamHolds_setStream s j t t' h ho]

theorem obj_setStream (s : HoldState) (j : Nat) (t : HoldStream) (k : Nat) : (s.setStream j t).obj k = s.obj k := rfl

theorem alive_setStream (s : HoldState) (j : Nat) (t t' : HoldStream) (h : s.streams[j]? = some t)
    (ho : t'.isOpen = t.isOpen) : (s.setStream j t').alive = s.alive := by
  rw [Bool.eq_iff_iff, holdAlive_iff, holdAlive_iff]
  simp [obj_setStream, holds_setStream s j t t' h ho]

theorem alive_push (s : HoldState) (o : HoldObj) : (s.push o).alive = (s.alive || s.holds o) := by
  rw [Bool.eq_iff_iff, Bool.or_eq_true, holdAlive_iff, holdAlive_iff]
  constructor
  · rintro ⟨k, x, hk, hx⟩
    rw [obj_push] at hk
    rw [holds_push] at hx
    by_cases h : k = s.objs.length
    · simp [h] at hk; subst hk; exact .inr hx
    · simp [h] at hk; exact .inl ⟨k, x, hk, hx⟩
  · rintro (⟨k, x, hk, hx⟩ | h)
    · have := obj_lt hk
      exact ⟨k, x, by rw [obj_push, if_neg (by omega)]; exact hk, by rw [holds_push]; exact hx⟩
    · exact ⟨s.objs.length, o, by rw [obj_push]; simp, by rw [holds_push]; exact h⟩

/-- Replacing an object. -/
theorem alive_setObj (s : HoldState) (i : Nat) (o : HoldObj) (o' : HoldObj) (h : s.obj i = some o) :
    (s.setObj i (some o')).alive = true ↔ s.holds o' = true ∨ HeldBesides s i := by
  rw [holdAlive_iff]
  have hl := obj_lt h
  constructor
  · rintro ⟨k, x, hk, hx⟩
    rw [obj_setObj] at hk
    rw [holds_setObj] at hx
    by_cases hik : i = k
    · simp [hik ▸ hl, hik] at hk; subst hk; exact .inl hx
    · simp [hik] at hk; exact .inr ⟨k, x, fun e => hik e.symm, hk, hx⟩
  · rintro (hx | ⟨k, x, hki, hk, hx⟩)
    · exact ⟨i, o', by rw [obj_setObj]; simp [hl], by rw [holds_setObj]; exact hx⟩
    · exact ⟨k, x, by rw [obj_setObj, if_neg (fun e => hki e.1.symm)]; exact hk, by rw [holds_setObj]; exact hx⟩

theorem alive_of_obj {s : HoldState} {i : Nat} {o : HoldObj} (h : s.obj i = some o) :
    s.alive = true ↔ s.holds o = true ∨ HeldBesides s i := by
  rw [holdAlive_iff]
  constructor
  · rintro ⟨k, x, hk, hx⟩
    by_cases hik : k = i
    · subst hik; rw [h] at hk; cases hk; exact .inl hx
    · exact .inr ⟨k, x, hik, hk, hx⟩
  · rintro (hx | ⟨k, x, _, hk, hx⟩)
    · exact ⟨i, o, h, hx⟩
    · exact ⟨k, x, hk, hx⟩

/-! ## The readers -/

/-- Until a chunk has been taken there is nothing to decode. -/
def HoldReader.Ok (r : HoldReader) : Prop := r.cur = false → r.own.start = r.own.mem.length

theorem own_none_core (off : Bytes → Bool → Nat) (dec : Bytes → Bool → Dec Record) : ∀ (fuel : Nat) (z : OwnReader),
    (z.readCore dec off fuel).1 = .ok none →
    (z.readCore dec off fuel).2.pending = false ∧
      (z.readCore dec off fuel).2.start = (z.readCore dec off fuel).2.mem.length
  | 0, z, h => by simp [OwnReader.readCore] at h
  | fuel + 1, z, h => by
    unfold OwnReader.readCore at h ⊢
    cases hd : dec (z.mem.drop z.start) z.pending with
    | got r rest => simp [hd] at h
    | fail e rest => simp [hd] at h
    | ub w => simp [hd] at h
    | more a b =>
      cases hp : z.pending with
      | true =>
        simp only [hp] at hd
        simp only [hp, hd, if_true] at h ⊢
        exact own_none_core off dec fuel _ h
      | false =>
        simp only [hp] at hd
        simp only [hp, hd] at h ⊢
        simp [hp]

theorem readCore_none {dec : Bytes → Bool → Dec Record} {r : HoldReader} (h : (r.readCore dec).1 = .ok none)
    (hp : r.peeked = false) : (r.readCore dec).2.holds = false := by
  unfold HoldReader.readCore at h ⊢
  have := own_none_core (fun _ _ => 0) dec 3 r.own
  unfold OwnReader.read at h ⊢
  rcases hr : r.own.readCore dec (fun _ _ => 0) 3 with ⟨o, z⟩
  rw [hr] at this h
  cases o with
  | ok o =>
    cases o with
    | none =>
      have h2 := this rfl
      simp only at h2
      simp [HoldReader.holds, h2.1, hp]
    | some x => simp at h
  | err e => simp at h
  | ub w => simp at h

theorem readCore_some {dec : Bytes → Bool → Dec Record} {r : HoldReader} (h : (r.readCore dec).1 ≠ .ok none) :
    (r.readCore dec).2.holds = true := by
  unfold HoldReader.readCore at h ⊢
  unfold OwnReader.read at h ⊢
  rcases hr : r.own.readCore dec (fun _ _ => 0) 3 with ⟨o, z⟩
  rw [hr] at h
  cases o with
  | ok o =>
    cases o with
    | none => simp at h
    | some x => simp [HoldReader.holds]
  | err e => simp [HoldReader.holds]
  | ub w => simp [HoldReader.holds]

theorem readCore_ok {dec : Bytes → Bool → Dec Record} {r : HoldReader} : (r.readCore dec).2.Ok := by
  unfold HoldReader.readCore
  have := own_none_core (fun _ _ => 0) dec 3 r.own
  unfold OwnReader.read
  rcases hr : r.own.readCore dec (fun _ _ => 0) 3 with ⟨o, z⟩
  rw [hr] at this
  cases o with
  | ok o =>
    cases o with
    | none => intro _; exact (this rfl).2
    | some x => intro h; simp at h
  | err e => intro h; simp at h
  | ub w => intro h; simp at h

/-- Once a reader refers to nothing, it finds nothing. -/
theorem readCore_dead {r : HoldReader} (hok : r.Ok) (h : r.holds = false) : (r.readCore parquetDecode).1 = .ok none := by
  simp only [HoldReader.holds, Bool.or_eq_false_iff] at h
  have hs := hok h.1.2
  unfold HoldReader.readCore
  simp only [OwnReader.read, OwnReader.readCore, hs, List.drop_length, h.1.1]
  rfl

/-- What either call does. -/
theorem call_cases (dec : Bytes → Bool → Dec Record) (r : HoldReader) (o : Bool × HoldReader)
    (ho : o = r.read dec ∨ o = r.peek dec) (hok : r.Ok) :
    o.2.Ok ∧
    ((r.peeked = false ∧ (r.readCore dec).1 = .ok none ∧ o.1 = false ∧ o.2.holds = false) ∨
      (¬ (r.peeked = false ∧ (r.readCore dec).1 = .ok none) ∧ (o.1 = true ∨ o.2.holds = true))) := by
  have hn := @readCore_none dec r
  have hs := @readCore_some dec r
  have hk := @readCore_ok dec r
  rcases hc : r.readCore dec with ⟨c, r'⟩
  rw [hc] at hn hs hk
  cases hp : r.peeked with
  | true =>
    rcases ho with rfl | rfl <;> simp [HoldReader.read, HoldReader.peek, hp] <;> exact hok
  | false =>
    cases c with
    | ok x =>
      cases x with
      | none => rcases ho with rfl | rfl <;> simp [HoldReader.read, HoldReader.peek, hp, hc, hn rfl hp] <;> exact hk
      | some x => rcases ho with rfl | rfl <;> simp [HoldReader.read, HoldReader.peek, hp, hc] <;> exact hk
    | err e => rcases ho with rfl | rfl <;> simp [HoldReader.read, HoldReader.peek, hp, hc, hs (by simp)] <;> exact hk
    | ub w => rcases ho with rfl | rfl <;> simp [HoldReader.read, HoldReader.peek, hp, hc, hs (by simp)] <;> exact hk

/-- Either call, and what it leaves. -/
theorem result_alive (s : HoldState) (i : Nat) (r : HoldReader) (o : Bool × HoldReader) (h : s.obj i = some (.reader r)) :
    (s.result i o).alive = true ↔ o.1 = true ∨ o.2.holds = true ∨ HeldBesides s i := by
  unfold HoldState.result
  cases ho : o.1 with
  | true => simp [alive_push, HoldState.holds]
  | false =>
    simp only [Bool.false_eq_true, if_false, false_or]
    exact alive_setObj s i _ _ h

/-! ## Programs -/

/-- All readers are in order. -/
def HoldState.Inv (s : HoldState) : Prop := ∀ k r, s.obj k = some (.reader r) → r.Ok

theorem inv_push {s : HoldState} (h : s.Inv) {o : HoldObj} (ho : ∀ r, o = .reader r → r.Ok) : (s.push o).Inv := by
  intro k r hk
  rw [obj_push] at hk
  by_cases hl : k = s.objs.length
  · simp [hl] at hk; exact ho r hk
  · simp [hl] at hk; exact h k r hk

theorem inv_setObj {s : HoldState} (h : s.Inv) {i : Nat} {o : Option HoldObj} (ho : ∀ r, o = some (.reader r) → r.Ok) :
    (s.setObj i o).Inv := by
  intro k r hk
  rw [obj_setObj] at hk
  by_cases hl : i = k ∧ i < s.objs.length
  · rw [if_pos hl] at hk; exact ho r hk
  · rw [if_neg hl] at hk; exact h k r hk

theorem inv_setStream {s : HoldState} (h : s.Inv) {j : Nat} {t : HoldStream} : (s.setStream j t).Inv := h

theorem inv_result {s : HoldState} (h : s.Inv) {i : Nat} {o : Bool × HoldReader} (ho : o.2.Ok) : (s.result i o).Inv := by
  unfold HoldState.result
  have h1 : (s.setObj i (some (.reader o.2))).Inv := inv_setObj h (by
    intro r hr
    cases hr
    exact ho)
  split
  · exact inv_push h1 (by intro r hr; cases hr)
  · exact h1

/-- `read_record` or `peek_record`. -/
theorem call_act (s : HoldState) (i : Nat) (r : HoldReader) (o : Bool × HoldReader) (a : HoldAct) (h : s.Inv)
    (hr : s.obj i = some (.reader r)) (ho : o = r.read parquetDecode ∨ o = r.peek parquetDecode) (ha : IsRead a i) :
    (s.result i o).Inv ∧ (s.alive = false → (s.result i o).alive = false) ∧
    (s.alive = true → ((s.result i o).alive = false ↔
      (a.locked = true ∧ (s.result i o).alive = false) ∨
      ∃ k r, IsRead a k ∧ s.obj k = some (.reader r) ∧ ReturnsNone r ∧ ¬ HeldBesides s k)) := by
  obtain ⟨hok, hc⟩ := call_cases parquetDecode r o ho (h i r hr)
  have hal := result_alive s i r o hr
  refine ⟨inv_result h hok, fun hd => ?_, fun _ => ?_⟩
  · have hd2 : ¬ (s.holds (.reader r) = true ∨ HeldBesides s i) := by
      rw [← alive_of_obj hr, hd]; simp
    have hrh : r.holds = false := by
      cases hh : r.holds with
      | false => rfl
      | true => exact absurd (.inl hh) hd2
    have hn := readCore_dead (h i r hr) hrh
    have hp : r.peeked = false := by
      simp only [HoldReader.holds, Bool.or_eq_false_iff] at hrh
      exact hrh.2
    rcases hc with ⟨_, _, h1, h2⟩ | ⟨h1, _⟩
    · rw [← Bool.not_eq_true, hal, h1, h2]
      simp only [Bool.false_eq_true, false_or]
      exact fun hb => hd2 (.inr hb)
    · exact absurd ⟨hp, hn⟩ h1
  · have hlock : a.locked = false := by rcases ha with rfl | rfl <;> rfl
    rw [hlock]
    simp only [Bool.false_eq_true, false_and, false_or]
    rw [← Bool.not_eq_true, hal]
    constructor
    · intro hn
      refine ⟨i, r, ha, hr, ?_, fun hb => hn (.inr (.inr hb))⟩
      rcases hc with ⟨h1, h2, _⟩ | ⟨_, h1 | h1⟩
      · exact ⟨h1, h2⟩
      · exact absurd (.inl h1) hn
      · exact absurd (.inr (.inl h1)) hn
    · rintro ⟨k, r', hk, hr', hrn, hb⟩
      have : k = i := by
        rcases ha with rfl | rfl <;> rcases hk with hk | hk <;> cases hk <;> rfl
      subst this
      rw [hr] at hr'
      cases hr'
      rcases hc with ⟨_, _, h1, h2⟩ | ⟨h1, _⟩
      · rw [h1, h2]
        simp only [Bool.false_eq_true, false_or]
        exact hb
      · exact absurd hrn h1

/-- One action: the readers stay in order, references are not made from nothing, and they are lost in two ways. -/
theorem act_cases (s : HoldState) (a : HoldAct) (h : s.Inv) :
    (s.act parquetDecode a).Inv ∧
    (s.alive = false → (s.act parquetDecode a).alive = false) ∧
    (s.alive = true → ((s.act parquetDecode a).alive = false ↔
      (a.locked = true ∧ (s.act parquetDecode a).alive = false) ∨
      ∃ i r, IsRead a i ∧ s.obj i = some (.reader r) ∧ ReturnsNone r ∧ ¬ HeldBesides s i)) := by
  cases a with
  | del i =>
    have key : ∀ s' : HoldState, (s' = s ∨ s' = s.setObj i none) → s'.Inv ∧ (s.alive = false → s'.alive = false) := by
      rintro s' (rfl | rfl)
      · exact ⟨h, id⟩
      · refine ⟨inv_setObj h (by intro r hr; cases hr), fun hd => ?_⟩
        rw [not_holdAlive_iff] at hd ⊢
        intro k o hk
        rw [obj_setObj] at hk
        rw [holds_setObj]
        split at hk
        · cases hk
        · exact hd k o hk
    have := key (s.act parquetDecode (.del i)) (by
      simp only [HoldState.act]
      split
      · exact .inl rfl
      · exact .inr rfl)
    refine ⟨this.1, this.2, fun _ => ?_⟩
    simp [HoldAct.locked, IsRead]
  | openRead i =>
    simp only [HoldState.act]
    split
    · rename_i hs
      have hal : s.alive = true := (holdAlive_iff s).mpr ⟨i, .store, hs, rfl⟩
      have hal' : HoldState.alive { s.push (.stream s.streams.length) with streams := s.streams ++ [⟨true, 0⟩] } = true := by
        refine (holdAlive_iff _).mpr ⟨i, .store, ?_, rfl⟩
        have := obj_push s (.stream s.streams.length) i
        rw [if_neg (by have := obj_lt hs; omega)] at this
        exact this.trans hs
      refine ⟨inv_push h (by intro r hr; cases hr), fun hd => ?_, fun _ => ?_⟩
      · rw [hal] at hd; cases hd
      · rw [hal']; simp [IsRead]
    · refine ⟨h, id, fun hal => ?_⟩
      rw [hal]; simp [IsRead]
  | close i =>
    have key : (s.act parquetDecode (.close i)).Inv ∧ (s.alive = false → (s.act parquetDecode (.close i)).alive = false) := by
      simp only [HoldState.act]
      split
      · rename_i j hs
        split
        · rename_i t ht
          refine ⟨inv_setStream h, fun hd => ?_⟩
          rw [not_holdAlive_iff] at hd ⊢
          intro k o hk
          have h1 := hd k o hk
          have h2 : ∀ k, s.streamHolds k = false → (s.setStream j { t with isOpen := false }).streamHolds k = false := by
            intro k hk
            simp only [HoldState.streamHolds, HoldState.setStream, List.getElem?_set] at hk ⊢
            by_cases hjk : j = k
            · subst hjk
              by_cases hl : j < s.streams.length <;> simp [hl]
            · simpa [hjk] using hk
          cases o <;> simp only [HoldState.holds] at h1 ⊢ <;> first | exact h1 | exact h2 _ h1
        · exact ⟨h, id⟩
      · exact ⟨h, id⟩
    refine ⟨key.1, key.2, fun _ => ?_⟩
    simp [HoldAct.locked, IsRead]
  | move i pos =>
    have key : (s.act parquetDecode (.move i pos)).Inv ∧ (s.act parquetDecode (.move i pos)).alive = s.alive := by
      simp only [HoldState.act]
      split
      · split
        · rename_i t ht
          split
          · exact ⟨inv_setStream h, alive_setStream s _ t { t with pos := min pos s.mem.length } ht rfl⟩
          · exact ⟨h, rfl⟩
        · exact ⟨h, rfl⟩
      · exact ⟨h, rfl⟩
    refine ⟨key.1, fun hd => key.2.trans hd, fun hal => ?_⟩
    rw [key.2, hal]; simp [IsRead]
  | readSlice i size =>
    have key : (s.act parquetDecode (.readSlice i size)).Inv ∧ (s.act parquetDecode (.readSlice i size)).alive = s.alive := by
      simp only [HoldState.act]
      split
      · rename_i j hs
        split
        · rename_i t ht
          split
          · rename_i hc
            refine ⟨inv_push (inv_setStream h) (by intro r hr; cases hr), ?_⟩
            rw [alive_push, alive_setStream s _ t { t with pos := min (t.pos + size) s.mem.length } ht rfl]
            have : s.alive = true := (holdAlive_iff s).mpr ⟨i, _, hs, by simp [HoldState.holds, HoldState.streamHolds, ht, hc.1]⟩
            simp [this]
          · exact ⟨h, rfl⟩
        · exact ⟨h, rfl⟩
      · exact ⟨h, rfl⟩
    refine ⟨key.1, fun hd => key.2.trans hd, fun hal => ?_⟩
    rw [key.2, hal]; simp [IsRead]
  | newReader i =>
    have key : (s.act parquetDecode (.newReader i)).Inv ∧ (s.act parquetDecode (.newReader i)).alive = s.alive := by
      simp only [HoldState.act]
      split
      · rename_i j hs
        unfold HoldState.newReader
        split
        · exact ⟨h, rfl⟩
        · rename_i t ht
          split
          · exact ⟨h, rfl⟩
          · rename_i hc
            have hc : t.isOpen = true := by simpa using hc
            have hal : s.alive = true := (holdAlive_iff s).mpr ⟨i, _, hs, by simp [HoldState.holds, HoldState.streamHolds, ht, hc]⟩
            split
            · refine ⟨inv_push (inv_setStream h) (by intro r hr; cases hr; intro _; rfl), ?_⟩
              rw [alive_push, alive_setStream s _ t { t with pos := s.mem.length } ht rfl, hal]; rfl
            · refine ⟨inv_push (inv_setStream h) (by intro r hr; cases hr), ?_⟩
              rw [alive_push, alive_setStream s _ t { t with pos := 0 } ht rfl, hal]; rfl
      · exact ⟨h, rfl⟩
    refine ⟨key.1, fun hd => key.2.trans hd, fun hal => ?_⟩
    rw [key.2, hal]; simp [IsRead]
  | newDataReader i =>
    have key : (s.act parquetDecode (.newDataReader i)).Inv ∧ (s.act parquetDecode (.newDataReader i)).alive = s.alive := by
      simp only [HoldState.act]
      split
      · rename_i hs
        refine ⟨inv_push h (by intro r hr; cases hr), ?_⟩
        rw [alive_push]
        have : s.alive = true := (holdAlive_iff s).mpr ⟨i, _, hs, rfl⟩
        simp [this]
      · exact ⟨h, rfl⟩
    refine ⟨key.1, fun hd => key.2.trans hd, fun hal => ?_⟩
    rw [key.2, hal]; simp [IsRead]
  | background i n =>
    have key : (s.act parquetDecode (.background i n)).Inv ∧ (s.act parquetDecode (.background i n)).alive = s.alive := by
      simp only [HoldState.act]
      split
      · rename_i m hs
        refine ⟨inv_setObj h (by intro r hr; cases hr), ?_⟩
        have : s.alive = true := (holdAlive_iff s).mpr ⟨i, _, hs, rfl⟩
        rw [this, alive_setObj s i _ _ hs]
        exact .inl rfl
      · exact ⟨h, rfl⟩
    refine ⟨key.1, fun hd => key.2.trans hd, fun hal => ?_⟩
    rw [key.2, hal]; simp [IsRead]
  | readRecord i =>
    simp only [HoldState.act]
    split
    · rename_i r hr
      exact call_act s i r _ (.readRecord i) h hr (.inl rfl) (.inl rfl)
    · rename_i hne
      refine ⟨h, id, fun hal => ?_⟩
      rw [hal]
      simp only [Bool.true_eq_false, and_false, false_or, false_iff]
      rintro ⟨k, r, hk | hk, ho, _⟩ <;> cases hk
      exact hne r ho
  | peekRecord i =>
    simp only [HoldState.act]
    split
    · rename_i r hr
      exact call_act s i r _ (.peekRecord i) h hr (.inr rfl) (.inr rfl)
    · rename_i hne
      refine ⟨h, id, fun hal => ?_⟩
      rw [hal]
      simp only [Bool.true_eq_false, and_false, false_or, false_iff]
      rintro ⟨k, r, hk | hk, ho, _⟩ <;> cases hk
      exact hne r ho

theorem init_inv (mem : Bytes) : (HoldState.init mem).Inv := by
  intro k r hk
  rcases k with _ | k <;> simp [HoldState.init, HoldState.obj] at hk

theorem init_alive (mem : Bytes) : (HoldState.init mem).alive = true := rfl

theorem act_released (dec : Bytes → Bool → Dec Record) (s : HoldState) (a : HoldAct) : (s.act dec a).released = s.released := by
  cases a <;> simp only [HoldState.act, HoldState.newReader, HoldState.result] <;> repeat' split
  all_goals rfl

theorem step_alive (dec : Bytes → Bool → Dec Record) (s : HoldState) (a : HoldAct) : (s.step dec a).alive = (s.act dec a).alive := by
  unfold HoldState.step
  simp only
  split
  · rfl
  · rfl

theorem step_obj (dec : Bytes → Bool → Dec Record) (s : HoldState) (a : HoldAct) (k : Nat) :
    (s.step dec a).obj k = (s.act dec a).obj k := by
  unfold HoldState.step
  simp only
  split
  · rfl
  · rfl

theorem step_inv (s : HoldState) (a : HoldAct) (h : s.Inv) : (s.step parquetDecode a).Inv := by
  intro k r hk
  rw [step_obj] at hk
  exact (act_cases s a h).1 k r hk

theorem step_released (s : HoldState) (a : HoldAct) : (s.step parquetDecode a).released =
    s.released ++ if s.alive && !(s.act parquetDecode a).alive then [a.locked] else [] := by
  unfold HoldState.step
  simp only
  split <;> simp [act_released]

theorem run_append (dec : Bytes → Bool → Dec Record) : ∀ (as bs : List HoldAct) (s : HoldState),
    s.run dec (as ++ bs) = (s.run dec as).run dec bs
  | [], _, _ => rfl
  | a :: as, bs, s => run_append dec as bs (s.step dec a)

theorem run_inv : ∀ (as : List HoldAct) (s : HoldState), s.Inv → (s.run parquetDecode as).Inv
  | [], _, h => h
  | a :: as, s, h => run_inv as _ (step_inv s a h)

/-- Given back once, when nothing refers to it. -/
theorem run_once : ∀ (as : List HoldAct) (s : HoldState), s.Inv → s.released.length = (if s.alive then 0 else 1) →
    (s.run parquetDecode as).released.length = if (s.run parquetDecode as).alive then 0 else 1
  | [], _, _, h => h
  | a :: as, s, hi, h => by
    refine run_once as _ (step_inv s a hi) ?_
    rw [step_released, step_alive, List.length_append, h]
    have := act_cases s a hi
    cases hs : s.alive with
    | false => simp [this.2.1 hs]
    | true => cases (s.act parquetDecode a).alive <;> simp

/-- A call that gives the buffer back without the lock. -/
def BadCall (s : HoldState) (a : HoldAct) : Prop :=
  s.alive = true ∧ ∃ i r, IsRead a i ∧ s.obj i = some (.reader r) ∧ ReturnsNone r ∧ ¬ HeldBesides s i

theorem isRead_unlocked {a : HoldAct} {i : Nat} (h : IsRead a i) : a.locked = false := by
  rcases h with rfl | rfl <;> rfl

theorem step_bad (s : HoldState) (a : HoldAct) (hi : s.Inv) :
    ReleasedLocked (s.step parquetDecode a) ↔ ReleasedLocked s ∧ ¬ BadCall s a := by
  have hc := (act_cases s a hi).2.2
  unfold ReleasedLocked
  rw [step_released]
  cases hs : s.alive with
  | false => simp [BadCall, hs]
  | true =>
    have hc := hc hs
    cases ha : (s.act parquetDecode a).alive with
    | true =>
      rw [ha] at hc
      simp only [Bool.true_eq_false, and_false, false_or, false_iff] at hc
      simp only [Bool.not_true, Bool.and_false, Bool.false_eq_true, if_false, List.append_nil]
      exact ⟨fun h => ⟨h, fun hb => hc hb.2⟩, fun h => h.1⟩
    | false =>
      rw [ha] at hc
      simp only [and_true, true_iff] at hc
      simp only [Bool.not_false, Bool.and_true, if_true, List.mem_append, List.mem_singleton]
      constructor
      · intro h
        refine ⟨fun l hl => h l (.inl hl), ?_⟩
        rintro ⟨_, i, r, hr, _⟩
        have := h _ (.inr rfl)
        rw [isRead_unlocked hr] at this
        cases this
      · rintro ⟨h1, h2⟩ l (hl | rfl)
        · exact h1 l hl
        · rcases hc with hc | hc
          · exact hc
          · exact absurd ⟨hs, hc⟩ h2

theorem run_bad : ∀ (as : List HoldAct) (s : HoldState), s.Inv →
    (ReleasedLocked (s.run parquetDecode as) ↔
      ReleasedLocked s ∧ ∀ pre a post, as = pre ++ a :: post → ¬ BadCall (s.run parquetDecode pre) a)
  | [], s, _ => by
    constructor
    · intro h
      exact ⟨h, fun pre a post e => by simp at e⟩
    · exact fun h => h.1
  | a :: as, s, hi => by
    rw [HoldState.run, run_bad as _ (step_inv s a hi), step_bad s a hi]
    constructor
    · rintro ⟨⟨h1, h2⟩, h3⟩
      refine ⟨h1, fun pre b post e => ?_⟩
      rcases pre with _ | ⟨p, pre⟩
      · simp only [List.nil_append, List.cons.injEq] at e
        rw [← e.1]
        exact h2
      · simp only [List.cons_append, List.cons.injEq] at e
        rw [← e.1]
        exact h3 pre b post e.2
    · rintro ⟨h1, h2⟩
      refine ⟨⟨h1, h2 [] a as rfl⟩, fun pre b post e => ?_⟩
      exact h2 (a :: pre) b post (by rw [e]; rfl)

/-! ## Programs that keep the store -/

theorem act_store (dec : Bytes → Bool → Dec Record) (s : HoldState) (a : HoldAct) (i : Nat) (h : s.obj i = some .store)
    (ha : a ≠ .del i) : (s.act dec a).obj i = some .store := by
  have hp : ∀ (s' : HoldState) o, s'.obj i = some .store → (s'.push o).obj i = some .store := by
    intro s' o hs'
    rw [obj_push, if_neg (by have := obj_lt hs'; omega)]
    exact hs'
  have hset : ∀ k x y, s.obj k = some x → x ≠ .store → (s.setObj k y).obj i = some .store := by
    intro k x y hk hx
    rw [obj_setObj, if_neg]
    · exact h
    · rintro ⟨rfl, _⟩
      rw [h] at hk
      cases hk
      exact hx rfl
  cases a with
  | del k =>
    simp only [HoldState.act]
    have : (s.setObj k none).obj i = some .store := by
      rw [obj_setObj, if_neg]
      · exact h
      · rintro ⟨rfl, _⟩
        exact ha rfl
    split
    · exact h
    · exact this
  | openRead k =>
    simp only [HoldState.act]
    split
    · exact hp s (.stream s.streams.length) h
    · exact h
  | close k => simp only [HoldState.act]; repeat' split
               all_goals exact h
  | move k pos => simp only [HoldState.act]; repeat' split
                  all_goals exact h
  | readSlice k size =>
    simp only [HoldState.act]
    repeat' split
    all_goals first | exact h | exact hp _ _ h
  | newReader k =>
    simp only [HoldState.act, HoldState.newReader]
    repeat' split
    all_goals first | exact h | exact hp _ _ h
  | newDataReader k =>
    simp only [HoldState.act]
    split
    · exact hp _ _ h
    · exact h
  | background k n =>
    simp only [HoldState.act]
    split
    · rename_i hk
      exact hset k _ _ hk (by simp)
    · exact h
  | readRecord k =>
    simp only [HoldState.act, HoldState.result]
    split
    · rename_i hk
      split
      · exact hp _ _ (hset k _ _ hk (by simp))
      · exact hset k _ _ hk (by simp)
    · exact h
  | peekRecord k =>
    simp only [HoldState.act, HoldState.result]
    split
    · rename_i hk
      split
      · exact hp _ _ (hset k _ _ hk (by simp))
      · exact hset k _ _ hk (by simp)
    · exact h

theorem run_store (dec : Bytes → Bool → Dec Record) (i : Nat) : ∀ (as : List HoldAct) (s : HoldState), s.obj i = some .store →
    .del i ∉ as → (s.run dec as).obj i = some .store
  | [], _, h, _ => h
  | a :: as, s, h, ha => by
    simp only [List.mem_cons, not_or] at ha
    refine run_store dec i as _ ?_ ha.2
    rw [step_obj]
    exact act_store dec s a i h (fun e => ha.1 e.symm)

end Mlio
