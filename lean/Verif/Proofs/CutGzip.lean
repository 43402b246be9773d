import Verif.Proofs.FollowsText
import Verif.Proofs.DataStore
import Verif.Spec.FailingStores

/-!
# Gzip files that were cut: proofs
-/

namespace Mlio
open Spec

theorem gzFile_of_after (z : Inflater) : ∀ (all : Bytes) (s : z.σ) (f : Bool) (s' : z.σ), after z s f all = some (s', true) →
    (all = [] ∧ f = true) ∨
    ∃ m t rest ms c, all = m ++ rest ∧ MemberFrom z s m t ∧ GzFile z ms rest c := by
  intro all
  induction all with
  | nil =>
    intro s f s' h
    simp only [after, Option.some.injEq, Prod.mk.injEq] at h
    exact Or.inl ⟨rfl, h.2⟩
  | cons b bs ih =>
    intro s f s' h
    right
    simp only [after] at h
    cases hf : z.feed s b with
    | bad => rw [hf] at h; cases h
    | last =>
      rw [hf] at h
      rcases ih z.init true s' h with ⟨rfl, _⟩ | ⟨m, t, rest, ms, c, rfl, h2, h3, rfl, rfl⟩
      · exact ⟨[b], [], [], [], [], rfl, .last s b hf, ⟨by simp, rfl, rfl⟩⟩
      · refine ⟨[b], [], m ++ _, (m, t) :: ms, _, rfl, .last s b hf, ⟨?_, by simp, rfl⟩⟩
        intro q hq
        rcases List.mem_cons.1 hq with rfl | hq
        · exact h2
        · exact h3 q hq
    | more out s1 =>
      rw [hf] at h
      rcases ih s1 false s' h with ⟨_, h⟩ | ⟨m, t, rest, ms, c, rfl, h2, h3⟩
      · cases h
      · exact ⟨b :: m, out ++ t, rest, ms, c, rfl, .more s s1 b m out t hf h2, h3⟩

theorem not_gzFile {z : Inflater} {all : Bytes} (h : ¬ ∃ ms c, GzFile z ms all c) (s' : z.σ) :
    after z z.init true all ≠ some (s', true) := by
  intro ha
  rcases gzFile_of_after z all z.init true s' ha with ⟨rfl, _⟩ | ⟨m, t, rest, ms, c, rfl, h2, h3, rfl, rfl⟩
  · exact h ⟨[], [], by simp, rfl, rfl⟩
  · refine h ⟨(m, t) :: ms, _, ?_, by simp, rfl⟩
    intro q hq
    rcases List.mem_cons.1 hq with rfl | hq
    · exact h2
    · exact h3 q hq

/-- One call of `inflate`, whatever the bytes are. -/
theorem inflateLoop_any (z : Inflater) : ∀ (inp : Bytes) (s : z.σ) (pend : Bytes) (room : Nat) (f : Bool),
    (inflateLoop z inp s pend room).status ≠ .dataError →
    (inflateLoop z inp s pend room).out.length ≤ room ∧
    ((inflateLoop z inp s pend room).pend ≠ [] → (inflateLoop z inp s pend room).status = .ok) ∧
    ((inflateLoop z inp s pend room).pend = [] → (inflateLoop z inp s pend room).left = [] ∨
      (inflateLoop z inp s pend room).status = .streamEnd) ∧
    (0 < room → (inflateLoop z inp s pend room).out = [] → pend = [] ∧ quiet z s inp = true) ∧
    ∃ x, inp = x ++ (inflateLoop z inp s pend room).left ∧
      (x = [] → (inflateLoop z inp s pend room).status = .ok ∧ (room < pend.length ∨ inp = [])) ∧
      (∃ f', after z s f x = some ((inflateLoop z inp s pend room).state, f') ∧
        (x ≠ [] → f' = ((inflateLoop z inp s pend room).status == .streamEnd))) ∧
      pend ++ unzip z s x = (inflateLoop z inp s pend room).out ++ (inflateLoop z inp s pend room).pend := by
  intro inp
  induction inp with
  | nil =>
    intro s pend room f _
    rw [show inflateLoop z [] s pend room = ⟨.ok, s, pend.drop room, [], pend.take room⟩ from rfl]
    refine ⟨by simp; omega, fun _ => rfl, fun _ => Or.inl rfl, fun hr ho => ⟨?_, rfl⟩, [], rfl, fun _ => ⟨rfl, Or.inr rfl⟩,
      ⟨f, rfl, fun h => absurd rfl h⟩, by simp [unzip]⟩
    have := congrArg List.length ho
    simp only [List.length_take, List.length_nil] at this
    exact List.length_eq_zero_iff.1 (by omega)
  | cons b bs ih =>
    intro s pend room f h
    by_cases hr : room < pend.length
    · have e1 : inflateLoop z (b :: bs) s pend room = ⟨.ok, s, pend.drop room, b :: bs, pend.take room⟩ := by
        simp only [inflateLoop, if_pos hr]
      rw [e1]
      refine ⟨by simp; omega, fun _ => rfl, fun hz => ?_, fun hr' ho => ?_, [], rfl, fun _ => ⟨rfl, Or.inl hr⟩,
        ⟨f, rfl, fun h => absurd rfl h⟩, by simp [unzip]⟩
      · have := congrArg List.length hz
        simp only [List.length_drop, List.length_nil] at this
        omega
      · have := congrArg List.length ho
        simp only [List.length_take, List.length_nil] at this
        omega
    · cases hf : z.feed s b with
      | bad => simp [inflateLoop, if_neg hr, hf] at h
      | last =>
        have e1 : inflateLoop z (b :: bs) s pend room = ⟨.streamEnd, z.init, [], bs, pend⟩ := by
          simp only [inflateLoop, if_neg hr, hf]
        rw [e1]
        refine ⟨by simp; omega, fun h => absurd rfl h, fun _ => Or.inr rfl, fun _ ho => ⟨ho, by simp [quiet, hf]⟩, [b], rfl,
          fun h => by simp at h, ⟨true, by simp [after, hf], fun _ => by simp⟩, by simp [unzip, hf]⟩
      | more out s' =>
        have e1 : inflateLoop z (b :: bs) s pend room =
            { inflateLoop z bs s' out (room - pend.length) with
              out := pend ++ (inflateLoop z bs s' out (room - pend.length)).out } := by
          simp only [inflateLoop, if_neg hr, hf]
        rw [e1] at h
        obtain ⟨a2, a3, a4, a5, x, a6, a7, ⟨f', a8, a9⟩, a10⟩ := ih s' out (room - pend.length) false h
        rw [e1]
        refine ⟨by simp only [List.length_append]; omega, a3, a4, fun hr' ho => ?_, b :: x, by simp only [List.cons_append]; rw [← a6],
          fun h => by simp at h, ⟨if x = [] then false else f', ?_, fun _ => ?_⟩, ?_⟩
        · obtain ⟨o1, o2⟩ := List.append_eq_nil_iff.1 ho
          subst o1
          obtain ⟨c1, c2⟩ := a5 (by simp only [List.length_nil]; omega) o2
          refine ⟨rfl, ?_⟩
          unfold quiet
          rw [hf]
          simp only [c1, c2, List.isEmpty_nil, Bool.and_self]
        · simp only [after, hf]
          by_cases hx : x = []
          · subst hx
            simp only [after, Option.some.injEq, Prod.mk.injEq] at a8
            rw [if_pos rfl, ← a8.1]
            rfl
          · rw [if_neg hx]; exact a8
        · by_cases hx : x = []
          · rw [if_pos hx]
            simp only [(a7 hx).1]
            rfl
          · rw [if_neg hx]; exact a9 hx
        · simp only [unzip, hf, List.append_assoc]
          rw [a10]

/-- See `AudFrom`. -/
def OutFrom (z : Inflater) (s : z.σ) (f : Bool) (cur : Bytes) (rest : List Bytes) : Prop :=
  ∀ pre b post x y s' f', cur :: rest = pre ++ b :: post → b = x ++ y → y ≠ [] →
    after z s f (pre.flatten ++ x) = some (s', f') → ((x = [] ∧ pre ≠ []) ∨ f' = true) → quiet z s' y = false

theorem OutFrom.advance {z : Inflater} {s : z.σ} {f : Bool} {x cur : Bytes} {rest : List Bytes} (h : OutFrom z s f (x ++ cur) rest)
    {s' : z.σ} {f' : Bool} (ha : after z s f x = some (s', f')) : OutFrom z s' f' cur rest := by
  intro pre b post u v s2 f2 h1 h2 h3 h4 h5
  cases pre with
  | nil =>
    simp only [List.nil_append, List.cons.injEq] at h1
    obtain ⟨rfl, rfl⟩ := h1
    subst h2
    refine h [] _ _ (x ++ u) v s2 f2 rfl (by simp) h3 ?_ (Or.inr ?_)
    · simp only [List.flatten_nil, List.nil_append] at h4 ⊢
      rw [after_append, ha]
      exact h4
    · rcases h5 with ⟨_, h⟩ | h
      · exact absurd rfl h
      · exact h
  | cons p pre =>
    simp only [List.cons_append, List.cons.injEq] at h1
    obtain ⟨rfl, rfl⟩ := h1
    refine h ((x ++ cur) :: pre) b post u v s2 f2 rfl h2 h3 ?_ ?_
    · simp only [List.flatten_cons, List.append_assoc] at h4 ⊢
      rw [after_append, ha]
      exact h4
    · rcases h5 with ⟨h, _⟩ | h
      · exact Or.inl ⟨h, by simp⟩
      · exact Or.inr h

theorem OutFrom.next {z : Inflater} {s : z.σ} {f : Bool} {b : Bytes} {rest : List Bytes} (h : OutFrom z s f [] (b :: rest)) :
    OutFrom z s f b rest := by
  intro pre c post u v s2 f2 h1 h2 h3 h4 h5
  refine h ([] :: pre) c post u v s2 f2 (by rw [h1]; rfl) h2 h3 (by simpa using h4) ?_
  rcases h5 with ⟨h, _⟩ | h
  · exact Or.inl ⟨h, by simp⟩
  · exact Or.inr h

/-- The stream has at most `text` yet to deliver, the underlying stream has the blocks `rest`, and they do not end a gzip file. -/
structure GzBad {m : InStream} {z : Inflater} (g : GzStream m z) (rest : List Bytes) (text : Bytes) : Prop where
  inner : Spec.Delivers m g.inner rest
  status : g.status ≠ .dataError
  text : text = g.pend ++ unzip z g.state (g.buf ++ rest.flatten)
  cut : ∀ s', after z g.state (g.status == .streamEnd) (g.buf ++ rest.flatten) ≠ some (s', true)
  pend : g.pend ≠ [] → g.status = .ok
  edge : g.pend = [] → g.buf = [] ∨ g.status = .streamEnd
  out : OutFrom z g.state (g.status == .streamEnd) g.buf rest

/-- The stream has failed. -/
def GzFailed {m : InStream} {z : Inflater} (g : GzStream m z) : Prop :=
  (g.buf ≠ [] ∧ g.status = .dataError) ∨ (g.buf = [] ∧ g.status ≠ .streamEnd ∧ Spec.Delivers m g.inner [])

theorem delivers_end {m : InStream} {s : m.σ} (h : Spec.Delivers m s []) :
    ∃ i, m.read s 0x80000 = (.ok [], i) ∧ Spec.Delivers m i [] := by
  have h1 := h 1
  refine ⟨(m.read s 0x80000).2, ?_, ?_⟩
  · simp only [List.replicate, InStream.reads, List.cons.injEq, and_true] at h1
    rw [← h1]
  · intro k
    have := h (k + 1)
    simp only [List.replicate, InStream.reads, List.cons.injEq] at this
    exact this.2

theorem gzBad_inflate {m : InStream} {z : Inflater} (g : GzStream m z) (rest : List Bytes) (text : Bytes)
    (inner : Spec.Delivers m g.inner rest) (status : g.status ≠ .dataError)
    (htext : text = g.pend ++ unzip z g.state (g.buf ++ rest.flatten))
    (cut : ∀ s', after z g.state (g.status == .streamEnd) (g.buf ++ rest.flatten) ≠ some (s', true))
    (hpend : g.pend ≠ [] → g.status = .ok)
    (hout : OutFrom z g.state (g.status == .streamEnd) g.buf rest)
    (start : g.pend = [] → quiet z g.state g.buf = false)
    (hb : g.buf ≠ []) (n : Nat) (hn : 0 < n) (hn' : n < 2 ^ 32) :
    (∃ g', g.inflate n = (.err .inflateError, g') ∧ GzFailed g') ∨
    ∃ out g' t, g.inflate n = (.ok (out.length, out), g') ∧ out.length ≤ n ∧ out ≠ [] ∧ text = out ++ t ∧ GzBad g' rest t := by
  have hroom : n % 2 ^ 32 = n := Nat.mod_eq_of_lt hn'
  by_cases hst : (inflateLoop z g.buf g.state g.pend n).status = .dataError
  · left
    refine ⟨{ g with status := .dataError }, ?_, Or.inl ⟨hb, rfl⟩⟩
    unfold GzStream.inflate
    rw [if_neg status]
    simp only [hroom, hst]
  right
  obtain ⟨a2, a3, a4, a5, x, a6, a7, ⟨f', a8, a9⟩, a10⟩ :=
    inflateLoop_any z g.buf g.state g.pend n (g.status == .streamEnd) hst
  generalize hr : inflateLoop z g.buf g.state g.pend n = r at *
  have hflag : f' = (r.status == .streamEnd) := by
    by_cases hx : x = []
    · subst hx
      simp only [after, Option.some.injEq, Prod.mk.injEq] at a8
      rw [← a8.2]
      obtain ⟨h1, h2⟩ := a7 rfl
      rw [h1]
      rcases h2 with h2 | h2
      · have : g.pend ≠ [] := by intro h; rw [h] at h2; simp at h2
        rw [hpend this]
      · exact absurd h2 hb
    · exact a9 hx
  have hne : r.out ≠ [] := by
    intro ho
    obtain ⟨h1, h2⟩ := a5 hn ho
    rw [start h1] at h2
    cases h2
  have key : g.inflate n = (.ok (r.out.length, r.out),
      { g with buf := r.left, state := r.state, pend := r.pend, status := r.status }) := by
    unfold GzStream.inflate
    rw [if_neg status]
    simp only [hroom, hr]
    have hk : n - (n - r.out.length) = r.out.length := by omega
    have hnub : ¬ (r.left.length = g.buf.length ∧ r.out = []) := fun h => hne h.2
    rcases hst' : r.status with _ | _ | _
    · simp only [if_neg hnub, hk]
    · simp only [if_neg hnub, hk]
    · exact absurd hst' hst
  have hunz : unzip z g.state (g.buf ++ rest.flatten) = unzip z g.state x ++ unzip z r.state (r.left ++ rest.flatten) := by
    have := unzip_append z x (r.left ++ rest.flatten) g.state _ _ _ a8
    rw [← List.append_assoc, ← a6] at this
    exact this
  refine ⟨r.out, _, r.pend ++ unzip z r.state (r.left ++ rest.flatten), key, a2, hne, ?_, ?_⟩
  · rw [htext, hunz, ← List.append_assoc, a10, List.append_assoc]
  · refine ⟨inner, hst, rfl, fun s' hs' => cut s' ?_, a3, a4, ?_⟩
    · rw [a6, List.append_assoc, after_append, a8]
      simp only [Option.bind_some]
      rw [hflag]
      exact hs'
    · rw [a6] at hout
      have := hout.advance a8
      rw [hflag] at this
      exact this

theorem gzBad_read {m : InStream} {z : Inflater} (g : GzStream m z) (rest : List Bytes) (text : Bytes) (h : GzBad g rest text)
    (n : Nat) (hn : 0 < n) (hn' : n < 2 ^ 32) :
    (∃ g', g.read n = (.err .inflateError, g') ∧ GzFailed g') ∨
    ∃ out g' t rest', g.read n = (.ok (out.length, out), g') ∧ out.length ≤ n ∧ out ≠ [] ∧ text = out ++ t ∧ GzBad g' rest' t := by
  have step : ∀ g1 : GzStream m z, g.read n = g1.inflate n → ∀ rest1,
      ((∃ g', g1.inflate n = (.err .inflateError, g') ∧ GzFailed g') ∨
        ∃ out g' t, g1.inflate n = (.ok (out.length, out), g') ∧ out.length ≤ n ∧ out ≠ [] ∧ text = out ++ t ∧ GzBad g' rest1 t) →
      (∃ g', g.read n = (.err .inflateError, g') ∧ GzFailed g') ∨
      ∃ out g' t rest', g.read n = (.ok (out.length, out), g') ∧ out.length ≤ n ∧ out ≠ [] ∧ text = out ++ t ∧ GzBad g' rest' t := by
    intro g1 hg rest1 hx
    rw [hg]
    rcases hx with hx | ⟨out, g', t, h1, h2, h3, h4, h5⟩
    · exact Or.inl hx
    · exact Or.inr ⟨out, g', t, rest1, h1, h2, h3, h4, h5⟩
  by_cases hb : g.buf = []
  · have hbe : g.buf.isEmpty = true := by rw [hb]; rfl
    cases rest with
    | nil =>
      obtain ⟨i, hi, hd⟩ := delivers_end h.inner
      have hst : g.status ≠ .streamEnd := by
        intro hst
        refine h.cut g.state ?_
        rw [hb, hst]
        rfl
      left
      refine ⟨{ g with inner := i, buf := [] }, ?_, Or.inr ⟨rfl, hst, hd⟩⟩
      unfold GzStream.read
      rw [if_neg (by omega)]
      simp only [hbe, if_true, hi, List.isEmpty_nil, if_neg hst]
    | cons b bs =>
      obtain ⟨hne, i, hi, hd⟩ := h.inner
      have hread : g.read n = GzStream.inflate { g with inner := i, buf := b } n := by
        unfold GzStream.read
        rw [if_neg (by omega)]
        have hbe2 : b.isEmpty = false := by
          cases b
          · exact absurd rfl hne
          · rfl
        simp only [hbe, if_true, hi, hbe2, Bool.false_eq_true, if_false]
      have hout := h.out
      rw [hb] at hout
      refine step _ hread bs (gzBad_inflate { g with inner := i, buf := b } bs text hd h.status ?_ ?_ h.pend hout.next
        ?_ hne n hn hn')
      · rw [h.text, hb]; simp
      · have hc := h.cut
        rw [hb] at hc
        intro s' hs'
        exact hc s' (by simpa using hs')
      · intro _
        exact hout [[]] b bs [] b g.state _ rfl rfl hne rfl (Or.inl ⟨rfl, by simp⟩)
  · have hbe : g.buf.isEmpty = false := by
      cases hh : g.buf
      · exact absurd hh hb
      · rfl
    have hread : g.read n = g.inflate n := by
      unfold GzStream.read
      rw [if_neg (by omega)]
      simp only [hbe, Bool.false_eq_true, if_false]
    refine step g hread rest (gzBad_inflate g rest text h.inner h.status h.text h.cut h.pend h.out ?_ hb n hn hn')
    intro hp
    have hst : g.status = .streamEnd := by
      rcases h.edge hp with h | h
      · exact absurd h hb
      · exact h
    exact h.out [] g.buf rest [] g.buf g.state _ rfl rfl hb rfl (Or.inr (by rw [hst]; rfl))

theorem gzFailed_read {m : InStream} {z : Inflater} (g : GzStream m z) (h : GzFailed g) (n : Nat) (hn : 0 < n) :
    ∃ g', g.read n = (.err .inflateError, g') ∧ GzFailed g' := by
  unfold GzStream.read
  rw [if_neg (by omega)]
  rcases h with ⟨hb, hs⟩ | ⟨hb, hs, hd⟩
  · have hbe : g.buf.isEmpty = false := by
      cases hh : g.buf
      · exact absurd hh hb
      · rfl
    refine ⟨g, ?_, Or.inl ⟨hb, hs⟩⟩
    simp only [hbe, Bool.false_eq_true, if_false, GzStream.inflate, if_pos hs]
  · obtain ⟨i, hi, hd⟩ := delivers_end hd
    refine ⟨{ g with inner := i, buf := [] }, ?_, Or.inr ⟨rfl, hs, hd⟩⟩
    simp only [hb, List.isEmpty_nil, if_true, hi, if_neg hs]

theorem new_gzBad {m : InStream} {z : Inflater} {s : m.σ} {blocks : List Bytes} (hd : Spec.Delivers m s blocks)
    (h : ¬ ∃ ms c, GzFile z ms blocks.flatten c) (ho : Outspoken z blocks) :
    GzBad (GzStream.new z s) blocks (unzip z z.init blocks.flatten) := by
  refine ⟨hd, by simp [GzStream.new], rfl, not_gzFile h, fun h => absurd rfl h, fun _ => Or.inl rfl, ?_⟩
  intro pre b post x y s' f' e1 e2 e3 e4 e5
  cases pre with
  | nil =>
    simp only [List.nil_append, List.cons.injEq] at e1
    have := e1.1
    rw [e2] at this
    exact absurd (List.append_eq_nil_iff.1 this.symm).2 e3
  | cons p pre =>
    simp only [List.cons_append, List.cons.injEq] at e1
    obtain ⟨rfl, e1⟩ := e1
    refine ho pre b post x y s' f' e1 e2 e3 (by simpa [GzStream.new] using e4) ?_
    rcases e5 with ⟨h, _⟩ | h
    · exact Or.inl h
    · exact Or.inr h

/-! ## The streams of data stores -/

/-- The stream of a store that was cut, with at most the bytes to come. -/
def CutStream {z : Inflater} (s : StoreStm z) (x : Bytes) : Prop := ∃ g rest, s = .inflated g ∧ GzBad g rest x

/-- The stream of a store that was cut, after that place. -/
def CutFailed {z : Inflater} (s : StoreStm z) : Prop := ∃ g, s = .inflated g ∧ GzFailed g

theorem cut_step {z : Inflater} (s : (storeIn z).σ) (x : Bytes) (n : Nat) (h : CutStream s x) (hn : 0 < n) (hn' : n ≤ 2 ^ 32 - 1) :
    (∃ s1, (storeIn z).read s n = (.err .inflateError, s1) ∧ CutFailed s1) ∨
    ∃ got x' s1, (storeIn z).read s n = (.ok got, s1) ∧ x = got ++ x' ∧ got ≠ [] ∧ got.length ≤ n ∧ CutStream s1 x' := by
  obtain ⟨g, rest, rfl, h⟩ := h
  rcases gzBad_read g rest x h n hn (by omega) with ⟨g', h1, h2⟩ | ⟨out, g', t, rest', h1, h2, h3, h4, h5⟩
  · exact Or.inl ⟨.inflated g', by simp only [storeIn, gzIn, h1], g', rfl, h2⟩
  · exact Or.inr ⟨out, t, .inflated g', by simp only [storeIn, gzIn, h1, if_true], h4, h3, h2, g', rest', rfl, h5⟩

theorem cut_stuck {z : Inflater} (s : (storeIn z).σ) (n : Nat) (h : CutFailed s) (hn : 0 < n) (_ : n ≤ 2 ^ 32 - 1) :
    ∃ s1, (storeIn z).read s n = (.err .inflateError, s1) ∧ CutFailed s1 := by
  obtain ⟨g, rfl, h⟩ := h
  obtain ⟨g', h1, h2⟩ := gzFailed_read g h n hn
  exact ⟨.inflated g', by simp only [storeIn, gzIn, h1], g', rfl, h2⟩

theorem cut_open {z : Inflater} {w : World} {st : Store} {x : Bytes} (h : CutGzip z w st x) :
    ∃ s, st.openRead z w = .ok s ∧ CutStream s x := by
  obtain ⟨all, hb, hl, hc, hz, rfl, ho⟩ := h
  obtain ⟨s, h1, h2⟩ := behind_raw hb hl
  obtain ⟨blocks, d1, d2⟩ := delivers_of (by decide) all.length s all (Nat.le_refl _) (rawRel_supplies h2)
  subst d2
  exact ⟨.inflated (GzStream.new (m := rawIn) z s), by simp only [Store.openRead, h1, hc, makeInflate], _, blocks, rfl,
    new_gzBad (m := rawIn) d1 hz (ho s blocks h1 d1)⟩

/-- A test for `Outspoken`, for a single block. -/
def checkSpoken (z : Inflater) (all : Bytes) : Bool :=
  (List.range all.length).all fun i =>
    match after z z.init true (all.take i) with
    | none => true
    | some (s, fresh) => !(decide (i = 0) || fresh) || !quiet z s (all.drop i)

theorem outspoken_of_check {z : Inflater} {all : Bytes} (h : checkSpoken z all = true) : Outspoken z [all] := by
  intro pre b post x y s fresh h1 h2 h3 h4 h5
  cases pre with
  | cons c pre => simp at h1
  | nil =>
    simp only [List.nil_append, List.cons.injEq] at h1
    obtain ⟨rfl, rfl⟩ := h1
    subst h2
    have hy : 0 < y.length := List.length_pos_iff.2 h3
    have := List.all_eq_true.1 h x.length (List.mem_range.2 (by rw [List.length_append]; omega))
    simp only [List.take_left, List.drop_left] at this
    simp only [List.flatten_nil, List.nil_append] at h4
    rw [h4] at this
    simp only [Bool.or_eq_true, Bool.not_eq_true', Bool.or_eq_false_iff, decide_eq_false_iff_not] at this
    rcases this with ⟨g1, g2⟩ | g
    · rcases h5 with rfl | h5
      · simp at g1
      · simp [h5] at g2
    · exact g

end Mlio
