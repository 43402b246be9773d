import Verif.Spec.Gzip
import Verif.Proofs.StreamReader

/-!
# Proofs about inflating streams
-/

namespace Mlio
open Spec

/-- How compressed data ends. -/
inductive GzEnd where
  | clean
  | truncated
  | malformed
  deriving DecidableEq, Repr

/-- The contents of compressed data from a state; `fresh`: a member has ended just before. -/
inductive Unzips (z : Inflater) : z.σ → Bool → Bytes → Bytes → GzEnd → Prop
  | done (s : z.σ) : Unzips z s true [] [] .clean
  | cut (s : z.σ) : Unzips z s false [] [] .truncated
  | bad (s : z.σ) (fresh : Bool) (b : UInt8) (bs : Bytes) : z.feed s b = .bad → Unzips z s fresh (b :: bs) [] .malformed
  | last (s : z.σ) (fresh : Bool) (b : UInt8) (bs text : Bytes) (e : GzEnd) : z.feed s b = .last →
      Unzips z z.init true bs text e → Unzips z s fresh (b :: bs) text e
  | more (s s' : z.σ) (fresh : Bool) (b : UInt8) (bs out text : Bytes) (e : GzEnd) : z.feed s b = .more out s' →
      Unzips z s' false bs text e → Unzips z s fresh (b :: bs) (out ++ text) e

theorem unzips_total (z : Inflater) : ∀ (all : Bytes) (s : z.σ) (fresh : Bool), ∃ text e, Unzips z s fresh all text e
  | [], s, true => ⟨[], .clean, .done s⟩
  | [], s, false => ⟨[], .truncated, .cut s⟩
  | b :: bs, s, fresh => by
    rcases h : z.feed s b with ⟨out, s'⟩ | _ | _
    · obtain ⟨text, e, h1⟩ := unzips_total z bs s' false
      exact ⟨_, e, .more s s' fresh b bs out text e h h1⟩
    · obtain ⟨text, e, h1⟩ := unzips_total z bs z.init true
      exact ⟨_, e, .last s fresh b bs text e h h1⟩
    · exact ⟨[], .malformed, .bad s fresh b bs h⟩

theorem unzips_fun {z : Inflater} {s : z.σ} {fresh : Bool} {all t1 t2 : Bytes} {e1 e2 : GzEnd} (h1 : Unzips z s fresh all t1 e1)
    (h2 : Unzips z s fresh all t2 e2) : t1 = t2 ∧ e1 = e2 := by
  induction h1 generalizing t2 e2 with
  | done s => cases h2; exact ⟨rfl, rfl⟩
  | cut s => cases h2; exact ⟨rfl, rfl⟩
  | bad s fresh b bs h =>
    cases h2 with
    | bad => exact ⟨rfl, rfl⟩
    | last _ _ _ _ _ _ h' => rw [h] at h'; cases h'
    | more _ _ _ _ _ _ _ _ h' => rw [h] at h'; cases h'
  | last s fresh b bs text e h _ ih =>
    cases h2 with
    | bad _ _ _ _ h' => rw [h] at h'; cases h'
    | last _ _ _ _ _ _ h' h3 => exact ih h3
    | more _ _ _ _ _ _ _ _ h' => rw [h] at h'; cases h'
  | more s s' fresh b bs out text e h _ ih =>
    cases h2 with
    | bad _ _ _ _ h' => rw [h] at h'; cases h'
    | last _ _ _ _ _ _ h' => rw [h] at h'; cases h'
    | more _ _ _ _ _ _ _ _ h' h3 =>
      rw [h] at h'
      cases h'
      obtain ⟨rfl, rfl⟩ := ih h3
      exact ⟨rfl, rfl⟩

theorem unzips_member {z : Inflater} {s : z.σ} {m text rest t : Bytes} {e : GzEnd} (h : MemberFrom z s m text) (fresh : Bool)
    (hr : Unzips z z.init true rest t e) : Unzips z s fresh (m ++ rest) (text ++ t) e := by
  induction h generalizing fresh with
  | last s b h => exact .last s fresh b rest t e h hr
  | more s s' b bs out text h _ ih =>
    rw [List.append_assoc]
    exact .more s s' fresh b (bs ++ rest) out (text ++ t) e h (ih false)

theorem unzips_file {z : Inflater} : ∀ {ms : List (Bytes × Bytes)} {all contents : Bytes}, GzFile z ms all contents →
    Unzips z z.init true all contents .clean
  | [], all, contents, h => by
    obtain ⟨_, rfl, rfl⟩ := h
    exact .done _
  | m :: ms, all, contents, h => by
    obtain ⟨h1, rfl, rfl⟩ := h
    simp only [List.map_cons, List.flatten_cons]
    exact unzips_member (h1 m (by simp)) true (unzips_file ⟨fun m' hm' => h1 m' (by simp [hm']), rfl, rfl⟩)

theorem file_unzips {z : Inflater} {s : z.σ} {fresh : Bool} {all text : Bytes} {e : GzEnd} (h : Unzips z s fresh all text e)
    (he : e = .clean) :
    (fresh = false → ∃ m t ms r c, MemberFrom z s m t ∧ GzFile z ms r c ∧ all = m ++ r ∧ text = t ++ c) ∧
    (fresh = true → s = z.init → ∃ ms, GzFile z ms all text) := by
  induction h with
  | done s => exact ⟨fun h => (by cases h), fun _ _ => ⟨[], by simp, rfl, rfl⟩⟩
  | cut s => cases he
  | bad s fresh b bs h => cases he
  | last s fresh b bs text e h _ ih =>
    obtain ⟨ms, hms⟩ := (ih he).2 rfl rfl
    refine ⟨fun _ => ⟨[b], [], ms, bs, text, .last s b h, hms, rfl, rfl⟩, fun _ hs => ?_⟩
    subst hs
    refine ⟨([b], []) :: ms, ?_, by simp [hms.2.1], by simp [hms.2.2]⟩
    intro m hm
    rcases List.mem_cons.1 hm with rfl | hm
    · exact .last _ b h
    · exact hms.1 m hm
  | more s s' fresh b bs out text e h _ ih =>
    obtain ⟨m, t, ms, r, c, h1, h2, h3, h4⟩ := (ih he).1 rfl
    refine ⟨fun _ => ⟨b :: m, out ++ t, ms, r, c, .more s s' b m out t h h1, h2, by rw [h3]; rfl,
      by rw [h4, List.append_assoc]⟩, fun _ hs => ?_⟩
    subst hs
    refine ⟨(b :: m, out ++ t) :: ms, ?_, by simp [h3, h2.2.1], by simp [h4, h2.2.2]⟩
    intro m' hm
    rcases List.mem_cons.1 hm with rfl | hm
    · exact .more _ s' b m out t h h1
    · exact h2.1 m' hm

/-- What one call of `inflate` does. -/
theorem inflateLoop_spec (z : Inflater) : ∀ (inp : Bytes) (s : z.σ) (pend : Bytes) (room : Nat) (fresh : Bool) (y text : Bytes)
    (e : GzEnd), Unzips z s fresh (inp ++ y) text e → (pend ≠ [] → fresh = false) →
    (inflateLoop z inp s pend room).out.length ≤ room ∧
    (inflateLoop z inp s pend room).left.length ≤ inp.length ∧
    ((inflateLoop z inp s pend room).status = .dataError → e ≠ .clean) ∧
    ((inflateLoop z inp s pend room).status ≠ .dataError →
      ((inflateLoop z inp s pend room).pend ≠ [] → (inflateLoop z inp s pend room).status = .ok) ∧
      ((inflateLoop z inp s pend room).status = .streamEnd → (inflateLoop z inp s pend room).left.length < inp.length) ∧
      ((inflateLoop z inp s pend room).left.length < inp.length ∨ (room < pend.length ∨ inp = [])) ∧
      ((inflateLoop z inp s pend room).pend ≠ [] ∨ (inflateLoop z inp s pend room).status = .streamEnd ∨
        (inflateLoop z inp s pend room).left = []) ∧
      ∃ t f, pend ++ text = (inflateLoop z inp s pend room).out ++ ((inflateLoop z inp s pend room).pend ++ t) ∧
        Unzips z (inflateLoop z inp s pend room).state f ((inflateLoop z inp s pend room).left ++ y) t e ∧
        (f = ((inflateLoop z inp s pend room).status == .streamEnd) ∨
          ((inflateLoop z inp s pend room).left = inp ∧ f = fresh))) := by
  intro inp
  induction inp with
  | nil =>
    intro s pend room fresh y text e h hp
    simp only [inflateLoop, List.length_take, List.length_nil, List.nil_append] at h ⊢
    refine ⟨by omega, by omega, fun h => (by cases h), fun _ => ⟨fun _ => trivial, fun h => (by cases h), Or.inr (Or.inr trivial), Or.inr (Or.inr trivial),
      text, fresh, ?_, h, Or.inr ⟨trivial, rfl⟩⟩⟩
    rw [← List.append_assoc, List.take_append_drop]
  | cons b bs ih =>
    intro s pend room fresh y text e h hp
    by_cases hr : room < pend.length
    · have e1 : inflateLoop z (b :: bs) s pend room = ⟨.ok, s, pend.drop room, b :: bs, pend.take room⟩ := by
        simp only [inflateLoop, if_pos hr]
      rw [e1]
      simp only [List.length_take]
      refine ⟨by omega, by omega, fun h => (by cases h), fun _ => ⟨fun _ => trivial, fun h => (by cases h), Or.inr (Or.inl hr), Or.inl ?_,
        text, fresh, ?_, h, Or.inr ⟨trivial, rfl⟩⟩⟩
      · intro hz
        have := congrArg List.length hz
        simp only [List.length_drop, List.length_nil] at this
        omega
      · rw [← List.append_assoc, List.take_append_drop]
    · rcases hfe : z.feed s b with ⟨out, s'⟩ | _ | _
      · have e1 : inflateLoop z (b :: bs) s pend room =
            { inflateLoop z bs s' out (room - pend.length) with
              out := pend ++ (inflateLoop z bs s' out (room - pend.length)).out } := by
          simp only [inflateLoop, if_neg hr, hfe]
        cases h with
        | bad _ _ _ _ h' => rw [hfe] at h'; cases h'
        | last _ _ _ _ _ _ h' => rw [hfe] at h'; cases h'
        | more _ s1 _ _ _ out1 text1 _ h' h3 =>
          rw [hfe] at h'
          cases h'
          obtain ⟨a1, a2, a3, a4⟩ := ih s' out (room - pend.length) false y text1 e h3 (fun _ => rfl)
          rw [e1]
          simp only [List.length_append, List.length_cons]
          refine ⟨by omega, by omega, a3, fun hne => ?_⟩
          obtain ⟨b1, b2, b3, b4, t, f, b5, b6, b7⟩ := a4 hne
          refine ⟨b1, fun h => ?_, Or.inl (by omega), b4, t, f, ?_, b6, Or.inl ?_⟩
          · have := b2 h; omega
          · rw [List.append_assoc, b5]
          · rcases b7 with b7 | ⟨b7, b8⟩
            · exact b7
            · rw [b8]
              by_cases hse : (inflateLoop z bs s' out (room - pend.length)).status = .streamEnd
              · have := b2 hse
                rw [b7] at this
                omega
              · symm
                simpa using hse
      · have e1 : inflateLoop z (b :: bs) s pend room = ⟨.streamEnd, z.init, [], bs, pend⟩ := by
          simp only [inflateLoop, if_neg hr, hfe]
        cases h with
        | bad _ _ _ _ h' => rw [hfe] at h'; cases h'
        | more _ _ _ _ _ _ _ _ h' => rw [hfe] at h'; cases h'
        | last _ _ _ _ _ _ h' h3 =>
          rw [e1]
          simp only [List.length_cons]
          exact ⟨by omega, by omega, fun h => (by cases h), fun _ => ⟨fun h => absurd rfl h, fun _ => by omega, Or.inl (by omega),
            Or.inr (Or.inl trivial), text, true, rfl, h3, Or.inl rfl⟩⟩
      · have e1 : inflateLoop z (b :: bs) s pend room = ⟨.dataError, s, [], b :: bs, pend⟩ := by
          simp only [inflateLoop, if_neg hr, hfe]
        cases h with
        | last _ _ _ _ _ _ h' => rw [hfe] at h'; cases h'
        | more _ _ _ _ _ _ _ _ h' => rw [hfe] at h'; cases h'
        | bad _ _ _ _ h' =>
          rw [e1]
          simp only
          exact ⟨by omega, by omega, fun _ => (by decide), fun h => absurd rfl h⟩

/-- The stream has `text` yet to deliver. -/
structure GzInv {z : Inflater} (g : GzStream streamIn z) (text : Bytes) (e : GzEnd) : Prop where
  status : g.status ≠ .dataError
  pend : g.pend ≠ [] → g.status = .ok
  rest : ∃ t, text = g.pend ++ t ∧ Unzips z g.state (g.status == .streamEnd) (g.buf ++ g.inner.data) t e

/-- A bound for the number of reads. -/
def GzStream.left {z : Inflater} (g : GzStream streamIn z) : Nat := g.buf.length + g.inner.data.length

theorem gz_inflate {z : Inflater} (g : GzStream streamIn z) (text : Bytes) (e : GzEnd) (h : GzInv g text e) (hb : g.buf ≠ []) (n : Nat)
    (hn : 0 < n) (hn' : n < 2 ^ 32) :
    match g.inflate n with
    | (.ok (k, b), g') => k = b.length ∧ b.length ≤ n ∧ (b = [] → g'.left < g.left) ∧ g'.left ≤ g.left ∧
        g'.inner = g.inner ∧ (g'.pend ≠ [] ∨ g'.status = .streamEnd ∨ g'.buf = []) ∧
        ∃ t, text = b ++ t ∧ GzInv g' t e
    | (.err er, _) => er = .inflateError ∧ e ≠ .clean
    | (.ub _, _) => False := by
  obtain ⟨t, ht, hu⟩ := h.rest
  have hroom : n % 2 ^ 32 = n := Nat.mod_eq_of_lt hn'
  have hpf : g.pend ≠ [] → (g.status == .streamEnd) = false := by
    intro hp; rw [h.pend hp]; rfl
  obtain ⟨a1, a2, a3, a4⟩ := inflateLoop_spec z g.buf g.state g.pend n (g.status == .streamEnd) g.inner.data t e hu hpf
  unfold GzStream.inflate
  rw [if_neg h.status]
  simp only [hroom]
  generalize hr : inflateLoop z g.buf g.state g.pend n = r at a1 a2 a3 a4
  by_cases hde : r.status = .dataError
  · rw [hde]
    exact ⟨rfl, a3 hde⟩
  · obtain ⟨b1, b2, b3, b4, t', f, b5, b6, b7⟩ := a4 hde
    have hprog : r.out = [] → r.left.length < g.buf.length := by
      intro hz
      rcases b3 with b3 | b3 | b3
      · exact b3
      · exfalso
        have hgb : inflateLoop z g.buf g.state g.pend n = ⟨.ok, g.state, g.pend.drop n, g.buf, g.pend.take n⟩ := by
          rcases hgb : g.buf with _ | ⟨x, xs⟩
          · exact absurd hgb hb
          · simp only [inflateLoop, if_pos b3]
        rw [hgb] at hr
        rw [← hr] at hz
        have := congrArg List.length hz
        simp only [List.length_take, List.length_nil] at this
        omega
      · exact absurd b3 hb
    have hnub : ¬ (r.left.length = g.buf.length ∧ r.out = []) := fun h => by have := hprog h.2; omega
    have goal : r.out.length = r.out.length ∧ r.out.length ≤ n ∧
        (r.out = [] → r.left.length + g.inner.data.length < g.left) ∧ r.left.length + g.inner.data.length ≤ g.left ∧
        g.inner = g.inner ∧ (r.pend ≠ [] ∨ r.status = .streamEnd ∨ r.left = []) ∧
        ∃ t', text = r.out ++ t' ∧
          GzInv ({ g with buf := r.left, state := r.state, pend := r.pend, status := r.status } : GzStream streamIn z) t' e := by
      refine ⟨rfl, a1, ?_, ?_, rfl, b4, r.pend ++ t', ?_, ⟨hde, b1, t', rfl, ?_⟩⟩
      · intro hz; have := hprog hz; simp only [GzStream.left]; omega
      · simp only [GzStream.left]; omega
      · rw [ht, b5]
      · simp only
        rcases b7 with b7 | ⟨b7, b8⟩
        · rw [← b7]; exact b6
        · -- nothing was read: a member is still in progress
          have hst' : r.status ≠ .streamEnd := by
            intro hs
            have := b2 hs
            rw [b7] at this
            omega
          have hp : g.pend ≠ [] := by
            intro hz
            rcases b3 with b3 | b3 | b3
            · rw [b7] at b3; omega
            · rw [hz] at b3; simp at b3
            · exact hb b3
          have e1 : (r.status == ZStatus.streamEnd) = false := by simpa using hst'
          rw [e1]
          rw [b8, hpf hp] at b6
          exact b6
    have hk : n - (n - r.out.length) = r.out.length := by omega
    rcases hst : r.status with _ | _ | _
    · rw [hst] at goal
      simp only [if_neg hnub, hk]
      simpa [GzStream.left] using goal
    · rw [hst] at goal
      simp only [if_neg hnub, hk]
      simpa [GzStream.left] using goal
    · exact absurd hst hde

theorem gz_read {z : Inflater} (g : GzStream streamIn z) (text : Bytes) (e : GzEnd) (h : GzInv g text e) (n : Nat)
    (hn : 0 < n) (hn' : n < 2 ^ 32) :
    match g.read n with
    | (.ok (k, b), g') => k = b.length ∧ b.length ≤ n ∧
        (b = [] → g'.left < g.left ∨ (g'.left = 0 ∧ text = [] ∧ e = .clean)) ∧ g'.left ≤ g.left ∧
        ∃ t, text = b ++ t ∧ GzInv g' t e
    | (.err er, _) => er = .inflateError ∧ e ≠ .clean
    | (.ub _, _) => False := by
  unfold GzStream.read
  rw [if_neg (by omega)]
  by_cases hb : g.buf = []
  · have hbe : g.buf.isEmpty = true := by rw [hb]; rfl
    simp only [hbe, if_true]
    obtain ⟨h1, h2, h3⟩ := Stream.read_spec g.inner 0x80000 (by decide)
    have h' : GzInv ({ g with inner := (g.inner.read 0x80000).2, buf := (g.inner.read 0x80000).1 } : GzStream streamIn z) text e := by
      obtain ⟨t, ht, hu⟩ := h.rest
      refine ⟨h.status, h.pend, t, ht, ?_⟩
      simp only
      rw [h1]
      rw [hb, List.nil_append] at hu
      exact hu
    have hlen := congrArg List.length h1
    simp only [List.length_append] at hlen
    by_cases hr : (g.inner.read 0x80000).1 = []
    · have hre : (g.inner.read 0x80000).1.isEmpty = true := by rw [hr]; rfl
      simp only [hre, if_true]
      have hd := h3 (by rw [hr]; rfl)
      obtain ⟨t, ht, hu⟩ := h.rest
      rw [hb, hd, List.nil_append] at hu
      by_cases hs : g.status = .streamEnd
      · rw [if_pos hs]
        have hp : g.pend = [] := by
          by_cases hp : g.pend = []
          · exact hp
          · have := h.pend hp; rw [hs] at this; cases this
        rw [hs] at hu
        cases hu
        simp only
        refine ⟨rfl, Nat.zero_le _, fun _ => Or.inr ⟨?_, by rw [ht, hp]; rfl, trivial⟩, ?_, text, rfl, h'⟩
        · rw [hr, hd] at hlen
          simp only [GzStream.left, hr]
          simp only [List.length_nil] at hlen ⊢
          omega
        · simp only [GzStream.left]; omega
      · rw [if_neg hs]
        simp only
        refine ⟨trivial, ?_⟩
        have e1 : (g.status == ZStatus.streamEnd) = false := by simpa using hs
        rw [e1] at hu
        cases hu
        decide
    · have hre : (g.inner.read 0x80000).1.isEmpty = false := by
        cases hh : (g.inner.read 0x80000).1
        · exact absurd hh hr
        · rfl
      simp only [hre, Bool.false_eq_true, if_false]
      have := gz_inflate _ text e h' hr n hn hn'
      rcases hi : GzStream.inflate ({ g with inner := (g.inner.read 0x80000).2, buf := (g.inner.read 0x80000).1 } : GzStream streamIn z) n
        with ⟨⟨k, b⟩ | _ | _, g'⟩
      · rw [hi] at this
        simp only at this ⊢
        obtain ⟨b1, b2, b3, b4, b5, b6, b7⟩ := this
        have hl : GzStream.left ({ g with inner := (g.inner.read 0x80000).2, buf := (g.inner.read 0x80000).1 } : GzStream streamIn z) =
            g.left := by simp only [GzStream.left, hb]; simp only [List.length_nil]; omega
        rw [hl] at b3 b4
        exact ⟨b1, b2, fun hz => Or.inl (b3 hz), b4, b7⟩
      · rw [hi] at this; exact this
      · rw [hi] at this; exact this
  · have hbe : g.buf.isEmpty = false := by
      cases hh : g.buf
      · exact absurd hh hb
      · rfl
    simp only [hbe, Bool.false_eq_true, if_false]
    have := gz_inflate g text e h hb n hn hn'
    rcases hi : g.inflate n with ⟨⟨k, b⟩ | _ | _, g'⟩
    · rw [hi] at this
      simp only at this ⊢
      obtain ⟨b1, b2, b3, b4, b5, b6, b7⟩ := this
      exact ⟨b1, b2, fun hz => Or.inl (b3 hz), b4, b7⟩
    · rw [hi] at this; exact this
    · rw [hi] at this; exact this


theorem new_gzInv (z : Inflater) (all : Bytes) (sched : List Nat) (text : Bytes) (e : GzEnd)
    (h : Unzips z z.init true all text e) : GzInv (GzStream.new (m := streamIn) z ⟨all, sched⟩) text e :=
  ⟨by simp [GzStream.new], fun h => absurd rfl h, text, rfl, h⟩

/-- Every sequence of reads. -/
theorem gz_reads {z : Inflater} : ∀ (ns : List Nat) (g : GzStream streamIn z) (text : Bytes) (e : GzEnd), GzInv g text e → Sizes ns →
    (e = .clean → (∀ r ∈ g.reads ns, ∃ b, r = .ok (b.length, b)) ∧ ((g.reads ns).map given).flatten <+: text) ∧
    (text.length + g.left < ns.length → e = .clean → ((g.reads ns).map given).flatten = text) ∧
    (text.length + g.left < ns.length → e ≠ .clean → ∃ r ∈ g.reads ns, r = .err .inflateError) := by
  intro ns
  induction ns with
  | nil =>
    intro g text e h hs
    refine ⟨fun _ => ⟨by simp [GzStream.reads], by simp [GzStream.reads]⟩, ?_, ?_⟩ <;> intro hl <;> simp at hl
  | cons n ns ih =>
    intro g text e h hs
    obtain ⟨hn, hn'⟩ := hs n (by simp)
    have h1 := gz_read g text e h n hn hn'
    simp only [GzStream.reads]
    rcases hr : g.read n with ⟨⟨k, b⟩ | er | _, g'⟩
    · rw [hr] at h1
      simp only at h1 ⊢
      obtain ⟨rfl, a2, a3, a4, t, rfl, a6⟩ := h1
      obtain ⟨b1, b2, b3⟩ := ih g' t e a6 (fun m hm => hs m (by simp [hm]))
      have hmeas : ¬ (b = [] ∧ ¬ g'.left < g.left) → (b ++ t).length + g.left < (n :: ns).length → t.length + g'.left < ns.length := by
        intro hc hl
        simp only [List.length_append, List.length_cons] at hl
        rcases Nat.eq_zero_or_pos b.length with hb | hb
        · have hb' := List.length_eq_zero_iff.1 hb
          have : g'.left < g.left := by
            rcases Nat.lt_or_ge g'.left g.left with h | h
            · exact h
            · exact absurd ⟨hb', by omega⟩ hc
          omega
        · omega
      refine ⟨fun he => ⟨?_, ?_⟩, fun hl he => ?_, fun hl he => ?_⟩
      · intro r hr
        rcases List.mem_cons.1 hr with rfl | hr
        · exact ⟨b, rfl⟩
        · exact (b1 he).1 r hr
      · simp only [List.map_cons, given, List.flatten_cons]
        exact (List.prefix_append_right_inj b).2 (b1 he).2
      · simp only [List.map_cons, given, List.flatten_cons]
        by_cases hc : b = [] ∧ ¬ g'.left < g.left
        · rcases a3 hc.1 with a3 | ⟨a3, a5, _⟩
          · exact absurd a3 hc.2
          · have ht := List.append_eq_nil_iff.1 a5
            have hp := (b1 he).2
            rw [ht.2] at hp
            rw [List.prefix_nil.1 hp, ht.2]
        · rw [b2 (hmeas hc hl) he]
      · have hc : ¬ (b = [] ∧ ¬ g'.left < g.left) := by
          intro hc
          rcases a3 hc.1 with a3 | ⟨_, _, a5⟩
          · exact hc.2 a3
          · exact he a5
        obtain ⟨r, hr, hre⟩ := b3 (hmeas hc hl) he
        exact ⟨r, List.mem_cons_of_mem _ hr, hre⟩
    · rw [hr] at h1
      simp only at h1
      refine ⟨fun he => absurd he h1.2, fun _ he => absurd he h1.2, fun _ _ => ⟨_, List.mem_cons_self, by simp only [h1.1]⟩⟩
    · rw [hr] at h1; exact h1.elim

/-- From the start of a member on, or with output that is due: the next call gives something. -/
theorem inflateLoop_gives (z : Inflater) : ∀ (m text : Bytes) (s : z.σ) (pend rest : Bytes) (room : Nat), MemberFrom z s m text →
    pend ++ text ≠ [] → 0 < room → (inflateLoop z (m ++ rest) s pend room).out ≠ [] := by
  intro m
  induction m with
  | nil => intro text s pend rest room h; cases h
  | cons b bs ih =>
    intro text s pend rest room h hne hroom hz
    by_cases hr : room < pend.length
    · simp only [List.cons_append, inflateLoop, if_pos hr] at hz
      have := congrArg List.length hz
      simp only [List.length_take, List.length_nil] at this
      omega
    · cases h with
      | last _ _ h =>
        simp only [List.cons_append, inflateLoop, if_neg hr, h] at hz
        rw [hz] at hne
        exact hne rfl
      | more _ s' _ _ out text h h' =>
        simp only [List.cons_append, inflateLoop, if_neg hr, h] at hz
        obtain ⟨hp, hz⟩ := List.append_eq_nil_iff.1 hz
        rw [hp] at hne hz
        exact ih text s' out rest _ h' hne (by simp only [List.length_nil]; omega) hz

/-- All is in the buffer, and the members that follow are not empty. -/
structure GzReady {z : Inflater} (g : GzStream streamIn z) (text : Bytes) : Prop where
  inner : g.inner.data = []
  ok : g.status ≠ .dataError
  rest : (g.pend = [] ∧ g.buf = [] ∧ text = [] ∧ g.status = .streamEnd) ∨
    (∃ m t ms r c, MemberFrom z g.state m t ∧ g.pend ++ t ≠ [] ∧ GzFile z ms r c ∧ (∀ x ∈ ms, x.2 ≠ []) ∧
      g.buf = m ++ r ∧ text = g.pend ++ t ++ c)

/-- What one call of `inflate` leaves, for a member in progress and files without empty members. -/
theorem inflateLoop_ready (z : Inflater) : ∀ (m t : Bytes) (s : z.σ) (pend : Bytes) (room : Nat) (ms : List (Bytes × Bytes)) (r c : Bytes),
    MemberFrom z s m t → GzFile z ms r c → (∀ x ∈ ms, x.2 ≠ []) →
    (inflateLoop z (m ++ r) s pend room).status ≠ .dataError ∧
    (((inflateLoop z (m ++ r) s pend room).status = .streamEnd ∧ (inflateLoop z (m ++ r) s pend room).state = z.init ∧
        (inflateLoop z (m ++ r) s pend room).pend = [] ∧ (inflateLoop z (m ++ r) s pend room).left = r ∧
        (inflateLoop z (m ++ r) s pend room).out = pend ++ t) ∨
      ((inflateLoop z (m ++ r) s pend room).pend ≠ [] ∧ ∃ m' t', MemberFrom z (inflateLoop z (m ++ r) s pend room).state m' t' ∧
        (inflateLoop z (m ++ r) s pend room).left = m' ++ r ∧
        pend ++ t = (inflateLoop z (m ++ r) s pend room).out ++ ((inflateLoop z (m ++ r) s pend room).pend ++ t'))) := by
  intro m
  induction m with
  | nil => intro t s pend room ms r c h; cases h
  | cons b bs ih =>
    intro t s pend room ms r c h hf hne
    by_cases hr : room < pend.length
    · have e1 : inflateLoop z (b :: bs ++ r) s pend room = ⟨.ok, s, pend.drop room, b :: bs ++ r, pend.take room⟩ := by
        simp only [List.cons_append, inflateLoop, if_pos hr]
      rw [e1]
      refine ⟨by simp, Or.inr ⟨?_, b :: bs, t, h, rfl, ?_⟩⟩
      · intro hz
        have := congrArg List.length hz
        simp only [List.length_drop, List.length_nil] at this
        omega
      · simp only; rw [← List.append_assoc, List.take_append_drop]
    · cases h with
      | last _ _ h =>
        have e1 : inflateLoop z ([b] ++ r) s pend room = ⟨.streamEnd, z.init, [], r, pend⟩ := by
          simp only [List.cons_append, List.nil_append, inflateLoop, if_neg hr, h]
        rw [e1]
        exact ⟨by simp, Or.inl ⟨rfl, rfl, rfl, rfl, by simp⟩⟩
      | more _ s' _ _ out text h h' =>
        have e1 : inflateLoop z (b :: bs ++ r) s pend room =
            { inflateLoop z (bs ++ r) s' out (room - pend.length) with
              out := pend ++ (inflateLoop z (bs ++ r) s' out (room - pend.length)).out } := by
          simp only [List.cons_append, inflateLoop, if_neg hr, h]
        obtain ⟨a1, a2⟩ := ih text s' out (room - pend.length) ms r c h' hf hne
        rw [e1]
        refine ⟨a1, ?_⟩
        rcases a2 with ⟨b1, b2, b3, b4, b5⟩ | ⟨b1, m', t', b2, b3, b4⟩
        · exact Or.inl ⟨b1, b2, b3, b4, by simp only [b5]⟩
        · exact Or.inr ⟨b1, m', t', b2, b3, by simp only [List.append_assoc]; rw [b4]⟩

theorem ready_of_file {z : Inflater} {ms : List (Bytes × Bytes)} {r c : Bytes} (hf : GzFile z ms r c) (hne : ∀ x ∈ ms, x.2 ≠ [])
    (g : GzStream streamIn z) (hi : g.inner.data = []) (hs : g.status = .streamEnd) (hst : g.state = z.init) (hp : g.pend = [])
    (hb : g.buf = r) : GzReady g c := by
  refine ⟨hi, by rw [hs]; decide, ?_⟩
  rcases ms with _ | ⟨m, ms⟩
  · obtain ⟨_, h1, h2⟩ := hf
    exact Or.inl ⟨hp, by rw [hb, h1]; rfl, h2, hs⟩
  · obtain ⟨h0, h1, h2⟩ := hf
    refine Or.inr ⟨m.1, m.2, ms, (ms.map (·.1)).flatten, (ms.map (·.2)).flatten, ?_, ?_, ⟨fun x hx => h0 x (by simp [hx]), rfl, rfl⟩,
      fun x hx => hne x (by simp [hx]), ?_, ?_⟩
    · rw [hst]; exact h0 m (by simp)
    · rw [hp]; exact hne m (by simp)
    · rw [hb, h1]; rfl
    · rw [hp, h2]; rfl

theorem ready_inflate {z : Inflater} (g : GzStream streamIn z) (text : Bytes) (h : GzReady g text) (hb : g.buf ≠ []) (n : Nat) (hn : 0 < n)
    (hn' : n < 2 ^ 32) : ∃ b g' t, g.inflate n = (.ok (b.length, b), g') ∧ b ≠ [] ∧ b.length ≤ n ∧ text = b ++ t ∧ GzReady g' t := by
  rcases h.rest with ⟨_, h1, _⟩ | ⟨m, t, ms, r, c, h1, h2, h3, h4, h5, h6⟩
  · exact absurd h1 hb
  · have hroom : n % 2 ^ 32 = n := Nat.mod_eq_of_lt hn'
    have hout := inflateLoop_gives z m t g.state g.pend r n h1 h2 hn
    obtain ⟨a1, a2⟩ := inflateLoop_ready z m t g.state g.pend n ms r c h1 h3 h4
    have hu : Unzips z g.state false (m ++ r ++ []) (t ++ c) .clean := by
      rw [List.append_nil]; exact unzips_member h1 false (unzips_file h3)
    obtain ⟨hlen, _⟩ := inflateLoop_spec z (m ++ r) g.state g.pend n false [] (t ++ c) .clean hu (fun _ => rfl)
    rw [← h5] at hout a1 a2 hlen
    refine ⟨(inflateLoop z g.buf g.state g.pend n).out, { g with
        buf := (inflateLoop z g.buf g.state g.pend n).left, state := (inflateLoop z g.buf g.state g.pend n).state
        pend := (inflateLoop z g.buf g.state g.pend n).pend, status := (inflateLoop z g.buf g.state g.pend n).status }, ?_⟩
    have key : g.inflate n = (.ok ((inflateLoop z g.buf g.state g.pend n).out.length, (inflateLoop z g.buf g.state g.pend n).out),
        { g with
          buf := (inflateLoop z g.buf g.state g.pend n).left, state := (inflateLoop z g.buf g.state g.pend n).state
          pend := (inflateLoop z g.buf g.state g.pend n).pend, status := (inflateLoop z g.buf g.state g.pend n).status }) := by
      unfold GzStream.inflate
      rw [if_neg h.ok]
      simp only [hroom]
      have hnub : ¬ ((inflateLoop z g.buf g.state g.pend n).left.length = g.buf.length ∧
          (inflateLoop z g.buf g.state g.pend n).out = []) := fun hh => hout hh.2
      have hk : n - (n - (inflateLoop z g.buf g.state g.pend n).out.length) =
          (inflateLoop z g.buf g.state g.pend n).out.length := by omega
      rcases hst : (inflateLoop z g.buf g.state g.pend n).status with _ | _ | _
      · simp only [if_neg hnub, hk]
      · simp only [if_neg hnub, hk]
      · exact absurd hst a1
    rcases a2 with ⟨b1, b2, b3, b4, b5⟩ | ⟨b1, m', t', b2, b3, b4⟩
    · refine ⟨c, key, hout, hlen, by rw [h6, b5], ?_⟩
      exact ready_of_file h3 h4 _ h.inner b1 b2 b3 b4
    · refine ⟨(inflateLoop z g.buf g.state g.pend n).pend ++ t' ++ c, key, hout, hlen, ?_, ?_⟩
      · rw [h6, b4]; simp only [List.append_assoc]
      · refine ⟨h.inner, a1, Or.inr ⟨m', t', ms, r, c, b2, ?_, h3, h4, b3, rfl⟩⟩
        intro hz
        exact b1 (List.append_eq_nil_iff.1 hz).1

theorem ready_reads {z : Inflater} : ∀ (ns : List Nat) (g : GzStream streamIn z) (text : Bytes), GzReady g text → Sizes ns →
    FullReads text ns (g.reads ns) := by
  intro ns
  induction ns with
  | nil => intro g text _ _; exact .nil _
  | cons n ns ih =>
    intro g text h hs
    obtain ⟨hn, hn'⟩ := hs n (by simp)
    have hs' : Sizes ns := fun m hm => hs m (by simp [hm])
    simp only [GzStream.reads]
    by_cases hb : g.buf = []
    · rcases h.rest with ⟨h1, h2, h3, h4⟩ | ⟨m, t, ms, r, c, h1, h2, h3, h4, h5, h6⟩
      · have hbe : g.buf.isEmpty = true := by rw [hb]; rfl
        obtain ⟨e1, _, _⟩ := Stream.read_spec g.inner 0x80000 (by decide)
        rw [h.inner] at e1
        obtain ⟨e2, e3⟩ := List.append_eq_nil_iff.1 e1
        have hrd : g.read n = (.ok (0, []), { g with inner := (g.inner.read 0x80000).2, buf := (g.inner.read 0x80000).1 }) := by
          unfold GzStream.read
          rw [if_neg (by omega)]
          simp only [hbe, if_true, e2, List.isEmpty_nil, h4]
        rw [hrd, h3]
        refine .done _ _ _ (ih _ [] ⟨e3, h.ok, Or.inl ⟨h1, e2, rfl, h4⟩⟩ hs')
      · rw [hb] at h5
        have := (List.append_eq_nil_iff.1 h5.symm).1
        subst this
        cases h1
    · have hbe : g.buf.isEmpty = false := by
        cases hh : g.buf
        · exact absurd hh hb
        · rfl
      obtain ⟨b, g', t, h1, h2, h3, rfl, h5⟩ := ready_inflate g text h hb n hn hn'
      have hrd : g.read n = (.ok (b.length, b), g') := by
        unfold GzStream.read
        rw [if_neg (by omega)]
        simp only [hbe, Bool.false_eq_true, if_false]
        exact h1
      rw [hrd]
      exact .more _ _ _ _ _ h2 h3 (ih g' t h5 hs')

end Mlio
