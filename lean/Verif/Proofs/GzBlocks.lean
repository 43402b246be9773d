import Verif.Proofs.Gzip

/-!
# Inflating streams over blocks: proofs
-/

namespace Mlio
open Spec

theorem after_append (z : Inflater) (x y : Bytes) : ∀ (s : z.σ) (f : Bool),
    after z s f (x ++ y) = (after z s f x).bind fun p => after z p.1 p.2 y := by
  induction x with
  | nil => intro s f; simp [after]
  | cons b bs ih =>
    intro s f
    simp only [List.cons_append, after]
    cases z.feed s b <;> simp [ih]

theorem unzip_append (z : Inflater) (x y : Bytes) : ∀ (s : z.σ) (f : Bool) (s' : z.σ) (f' : Bool),
    after z s f x = some (s', f') → unzip z s (x ++ y) = unzip z s x ++ unzip z s' y := by
  induction x with
  | nil => intro s f s' f' h; simp only [after, Option.some.injEq, Prod.mk.injEq] at h; simp [unzip, h.1]
  | cons b bs ih =>
    intro s f s' f' h
    simp only [List.cons_append, unzip, after] at h ⊢
    cases hf : z.feed s b with
    | bad => rw [hf] at h; cases h
    | last => rw [hf] at h; exact ih _ _ _ _ h
    | more out t => rw [hf] at h; simp only at h ⊢; rw [ih _ _ _ _ h, List.append_assoc]

/-- Where the flag matters. -/
theorem after_flag (z : Inflater) (x : Bytes) (hx : x ≠ []) (s : z.σ) (f g : Bool) : after z s f x = after z s g x := by
  cases x with
  | nil => exact absurd rfl hx
  | cons b bs => simp [after]

theorem unzips_after {z : Inflater} {s : z.σ} {f : Bool} {all text : Bytes} {e : GzEnd} (h : Unzips z s f all text e) :
    e = .clean → (∃ s', after z s f all = some (s', true)) ∧ unzip z s all = text := by
  induction h with
  | done s => intro _; exact ⟨⟨s, rfl⟩, rfl⟩
  | cut s => intro h; cases h
  | bad => intro h; cases h
  | last s f b bs text e h _ ih => intro he; simpa [after, unzip, h] using ih he
  | more s s' f b bs out text e h _ ih =>
    intro he
    obtain ⟨h1, h2⟩ := ih he
    simp only [after, unzip, h]
    exact ⟨h1, by rw [h2]⟩

theorem gzFile_after {z : Inflater} {ms : List (Bytes × Bytes)} {all contents : Bytes} (h : GzFile z ms all contents) :
    (∃ s', after z z.init true all = some (s', true)) ∧ unzip z z.init all = contents :=
  unzips_after (unzips_file h) rfl

/-- One call of `inflate`. -/
theorem inflateLoop_walk (z : Inflater) : ∀ (inp : Bytes) (s : z.σ) (pend : Bytes) (room : Nat) (f : Bool),
    (after z s f inp).isSome = true →
    (inflateLoop z inp s pend room).status ≠ .dataError ∧
    (inflateLoop z inp s pend room).out.length ≤ room ∧
    ((inflateLoop z inp s pend room).pend ≠ [] → (inflateLoop z inp s pend room).status = .ok) ∧
    ((inflateLoop z inp s pend room).pend = [] → (inflateLoop z inp s pend room).left = [] ∨
      (inflateLoop z inp s pend room).status = .streamEnd) ∧
    (0 < room → (inflateLoop z inp s pend room).out = [] → pend = [] ∧ silent z s inp = true) ∧
    ∃ x, inp = x ++ (inflateLoop z inp s pend room).left ∧
      (x = [] → (inflateLoop z inp s pend room).status = .ok ∧ (room < pend.length ∨ inp = [])) ∧
      (∃ f', after z s f x = some ((inflateLoop z inp s pend room).state, f') ∧
        (x ≠ [] → f' = ((inflateLoop z inp s pend room).status == .streamEnd))) ∧
      pend ++ unzip z s x = (inflateLoop z inp s pend room).out ++ (inflateLoop z inp s pend room).pend := by
  intro inp
  induction inp with
  | nil =>
    intro s pend room f h
    rw [show inflateLoop z [] s pend room = ⟨.ok, s, pend.drop room, [], pend.take room⟩ from rfl]
    refine ⟨by simp, by simp; omega, fun _ => rfl, fun _ => Or.inl rfl, fun hr ho => ⟨?_, rfl⟩, [], rfl, fun _ => ⟨rfl, Or.inr rfl⟩,
      ⟨f, rfl, fun h => absurd rfl h⟩, by simp [unzip]⟩
    have := congrArg List.length ho
    simp only [List.length_take, List.length_nil] at this
    exact List.length_eq_zero_iff.1 (by omega)
  | cons b bs ih =>
    intro s pend room f h
    by_cases hr : room < pend.length
    · have e1 : inflateLoop z (b :: bs) s pend room = ⟨.ok, s, pend.drop room, b :: bs, pend.take room⟩ := by
        simp only [inflateLoop, if_pos hr]
      rw [e1]
      refine ⟨by simp, by simp; omega, fun _ => rfl, fun hz => ?_, fun hr' ho => ?_, [], rfl, fun _ => ⟨rfl, Or.inl hr⟩,
        ⟨f, rfl, fun h => absurd rfl h⟩, by simp [unzip]⟩
      · have := congrArg List.length hz
        simp only [List.length_drop, List.length_nil] at this
        omega
      · have := congrArg List.length ho
        simp only [List.length_take, List.length_nil] at this
        omega
    · cases hf : z.feed s b with
      | bad => simp [after, hf] at h
      | last =>
        have e1 : inflateLoop z (b :: bs) s pend room = ⟨.streamEnd, z.init, [], bs, pend⟩ := by
          simp only [inflateLoop, if_neg hr, hf]
        rw [e1]
        refine ⟨by simp, by simp; omega, fun h => absurd rfl h, fun _ => Or.inr rfl, fun _ ho => ⟨ho, by simp [silent, hf]⟩, [b], rfl,
          fun h => by simp at h, ⟨true, by simp [after, hf], fun _ => by simp⟩, by simp [unzip, hf]⟩
      | more out s' =>
        have e1 : inflateLoop z (b :: bs) s pend room =
            { inflateLoop z bs s' out (room - pend.length) with
              out := pend ++ (inflateLoop z bs s' out (room - pend.length)).out } := by
          simp only [inflateLoop, if_neg hr, hf]
        have hsome : (after z s' false bs).isSome = true := by simpa [after, hf] using h
        obtain ⟨a1, a2, a3, a4, a5, x, a6, a7, ⟨f', a8, a9⟩, a10⟩ := ih s' out (room - pend.length) false hsome
        rw [e1]
        refine ⟨a1, by simp only [List.length_append]; omega, a3, a4, fun hr' ho => ?_, b :: x, by simp only [List.cons_append]; rw [← a6],
          fun h => by simp at h, ⟨if x = [] then false else f', ?_, fun _ => ?_⟩, ?_⟩
        · obtain ⟨o1, o2⟩ := List.append_eq_nil_iff.1 ho
          subst o1
          obtain ⟨c1, c2⟩ := a5 (by simp only [List.length_nil]; omega) o2
          refine ⟨rfl, ?_⟩
          unfold silent
          rw [hf]
          simp only [c1, c2, List.isEmpty_nil, Bool.and_self]
        · simp only [after, hf]
          by_cases hx : x = []
          · subst hx
            simp only [after, Option.some.injEq, Prod.mk.injEq] at a8
            rw [if_pos rfl, ← a8.1]
            rfl
          · rw [if_neg hx]; exact a8
        · by_cases hx : x = []
          · rw [if_pos hx]
            simp only [(a7 hx).1]
            rfl
          · rw [if_neg hx]; exact a9 hx
        · simp only [unzip, hf, List.append_assoc]
          rw [a10]

/-- The piece condition from a state on, with `cur` left of the current block. -/
def AudFrom (z : Inflater) (s : z.σ) (f : Bool) (cur : Bytes) (rest : List Bytes) : Prop :=
  ∀ pre b post x y s' f', cur :: rest = pre ++ b :: post → b = x ++ y → y ≠ [] →
    after z s f (pre.flatten ++ x) = some (s', f') → ((x = [] ∧ pre ≠ []) ∨ f' = true) →
    silent z s' y = true → unzip z s' (y ++ post.flatten) = []

theorem AudFrom.advance {z : Inflater} {s : z.σ} {f : Bool} {x cur : Bytes} {rest : List Bytes} (h : AudFrom z s f (x ++ cur) rest)
    {s' : z.σ} {f' : Bool} (ha : after z s f x = some (s', f')) : AudFrom z s' f' cur rest := by
  intro pre b post u v s2 f2 h1 h2 h3 h4 h5 h6
  cases pre with
  | nil =>
    simp only [List.nil_append, List.cons.injEq] at h1
    obtain ⟨rfl, rfl⟩ := h1
    subst h2
    refine h [] _ _ (x ++ u) v s2 f2 rfl (by simp) h3 ?_ (Or.inr ?_) h6
    · simp only [List.flatten_nil, List.nil_append] at h4 ⊢
      rw [after_append, ha]
      exact h4
    · rcases h5 with ⟨_, h⟩ | h
      · exact absurd rfl h
      · exact h
  | cons p pre =>
    simp only [List.cons_append, List.cons.injEq] at h1
    obtain ⟨rfl, rfl⟩ := h1
    refine h ((x ++ cur) :: pre) b post u v s2 f2 rfl h2 h3 ?_ ?_ h6
    · simp only [List.flatten_cons, List.append_assoc] at h4 ⊢
      rw [after_append, ha]
      exact h4
    · rcases h5 with ⟨h, _⟩ | h
      · exact Or.inl ⟨h, by simp⟩
      · exact Or.inr h

theorem AudFrom.next {z : Inflater} {s : z.σ} {f : Bool} {b : Bytes} {rest : List Bytes} (h : AudFrom z s f [] (b :: rest)) :
    AudFrom z s f b rest := by
  intro pre c post u v s2 f2 h1 h2 h3 h4 h5 h6
  refine h ([] :: pre) c post u v s2 f2 (by rw [h1]; rfl) h2 h3 (by simpa using h4) ?_ h6
  rcases h5 with ⟨h, _⟩ | h
  · exact Or.inl ⟨h, by simp⟩
  · exact Or.inr h

/-- The stream has `text` yet to deliver, and the underlying stream the blocks `rest`. -/
structure GzOk {m : InStream} {z : Inflater} (g : GzStream m z) (rest : List Bytes) (text : Bytes) : Prop where
  inner : Delivers m g.inner rest
  status : g.status ≠ .dataError
  text : text = g.pend ++ unzip z g.state (g.buf ++ rest.flatten)
  clean : ∃ s', after z g.state (g.status == .streamEnd) (g.buf ++ rest.flatten) = some (s', true)
  pend : g.pend ≠ [] → g.status = .ok
  edge : g.pend = [] → g.buf = [] ∨ g.status = .streamEnd
  audible : AudFrom z g.state (g.status == .streamEnd) g.buf rest

theorem gzOk_inflate {m : InStream} {z : Inflater} (g : GzStream m z) (rest : List Bytes) (text : Bytes)
    (inner : Delivers m g.inner rest) (status : g.status ≠ .dataError)
    (htext : text = g.pend ++ unzip z g.state (g.buf ++ rest.flatten))
    (clean : ∃ s', after z g.state (g.status == .streamEnd) (g.buf ++ rest.flatten) = some (s', true))
    (hpend : g.pend ≠ [] → g.status = .ok)
    (audible : AudFrom z g.state (g.status == .streamEnd) g.buf rest)
    (start : g.pend = [] → silent z g.state g.buf = true → unzip z g.state (g.buf ++ rest.flatten) = [])
    (hb : g.buf ≠ []) (n : Nat) (hn : 0 < n) (hn' : n < 2 ^ 32) :
    ∃ out g' t, g.inflate n = (.ok (out.length, out), g') ∧ out.length ≤ n ∧ (out = [] → text = []) ∧ text = out ++ t ∧
      GzOk g' rest t := by
  have hroom : n % 2 ^ 32 = n := Nat.mod_eq_of_lt hn'
  obtain ⟨s', hs'⟩ := clean
  have hsome : (after z g.state (g.status == .streamEnd) g.buf).isSome = true := by
    rw [after_append] at hs'
    cases hh : after z g.state (g.status == .streamEnd) g.buf with
    | none => rw [hh] at hs'; cases hs'
    | some p => rfl
  obtain ⟨a1, a2, a3, a4, a5, x, a6, a7, ⟨f', a8, a9⟩, a10⟩ := inflateLoop_walk z g.buf g.state g.pend n _ hsome
  generalize hr : inflateLoop z g.buf g.state g.pend n = r at *
  have hflag : f' = (r.status == .streamEnd) := by
    by_cases hx : x = []
    · subst hx
      simp only [after, Option.some.injEq, Prod.mk.injEq] at a8
      rw [← a8.2]
      obtain ⟨h1, h2⟩ := a7 rfl
      rw [h1]
      rcases h2 with h2 | h2
      · have : g.pend ≠ [] := by intro h; rw [h] at h2; simp at h2
        rw [hpend this]
      · exact absurd h2 hb
    · exact a9 hx
  have hnub : ¬ (r.left.length = g.buf.length ∧ r.out = []) := by
    rintro ⟨h1, h2⟩
    have hx : x = [] := by
      have := congrArg List.length a6
      rw [List.length_append] at this
      exact List.length_eq_zero_iff.1 (by omega)
    obtain ⟨_, h3 | h3⟩ := a7 hx
    · have := (a5 hn h2).1
      rw [this] at h3
      simp at h3
    · exact hb h3
  have key : g.inflate n = (.ok (r.out.length, r.out),
      { g with buf := r.left, state := r.state, pend := r.pend, status := r.status }) := by
    unfold GzStream.inflate
    rw [if_neg status]
    simp only [hroom, hr]
    have hk : n - (n - r.out.length) = r.out.length := by omega
    rcases hst : r.status with _ | _ | _
    · simp only [if_neg hnub, hk]
    · simp only [if_neg hnub, hk]
    · exact absurd hst a1
  have hunz : unzip z g.state (g.buf ++ rest.flatten) = unzip z g.state x ++ unzip z r.state (r.left ++ rest.flatten) := by
    have := unzip_append z x (r.left ++ rest.flatten) g.state _ _ _ a8
    rw [← List.append_assoc, ← a6] at this
    exact this
  refine ⟨r.out, _, r.pend ++ unzip z r.state (r.left ++ rest.flatten), key, a2, fun ho => ?_, ?_, ?_⟩
  · obtain ⟨h1, h2⟩ := a5 hn ho
    rw [htext, h1, start h1 h2]
    rfl
  · rw [htext, hunz, ← List.append_assoc, a10, List.append_assoc]
  · refine ⟨inner, a1, rfl, ⟨s', ?_⟩, a3, a4, ?_⟩
    · rw [a6, List.append_assoc, after_append, a8] at hs'
      simp only [Option.bind_some] at hs'
      rw [hflag] at hs'
      exact hs'
    · rw [a6] at audible
      have := audible.advance a8
      rw [hflag] at this
      exact this

theorem gzOk_read {m : InStream} {z : Inflater} (g : GzStream m z) (rest : List Bytes) (text : Bytes) (h : GzOk g rest text)
    (n : Nat) (hn : 0 < n) (hn' : n < 2 ^ 32) :
    ∃ out g' t rest', g.read n = (.ok (out.length, out), g') ∧ out.length ≤ n ∧ (out = [] → text = []) ∧ text = out ++ t ∧
      GzOk g' rest' t := by
  have step : ∀ g1 : GzStream m z, g.read n = g1.inflate n → ∀ rest1,
      (∃ out g' t, g1.inflate n = (.ok (out.length, out), g') ∧ out.length ≤ n ∧ (out = [] → text = []) ∧ text = out ++ t ∧
        GzOk g' rest1 t) → ∃ out g' t rest', g.read n = (.ok (out.length, out), g') ∧ out.length ≤ n ∧ (out = [] → text = []) ∧
        text = out ++ t ∧ GzOk g' rest' t := by
    rintro g1 hg rest1 ⟨out, g', t, h1, h2, h3, h4, h5⟩
    exact ⟨out, g', t, rest1, by rw [hg, h1], h2, h3, h4, h5⟩
  by_cases hb : g.buf = []
  · have hbe : g.buf.isEmpty = true := by rw [hb]; rfl
    cases rest with
    | nil =>
      have h1 := h.inner 1
      have hrd : ∃ i, m.read g.inner 0x80000 = (.ok [], i) ∧ Delivers m i [] := by
        refine ⟨(m.read g.inner 0x80000).2, ?_, ?_⟩
        · simp only [List.replicate, InStream.reads, List.cons.injEq, and_true] at h1
          rw [← h1]
        · intro k
          have := h.inner (k + 1)
          simp only [List.replicate, InStream.reads, List.cons.injEq] at this
          exact this.2
      obtain ⟨i, hi, hd⟩ := hrd
      obtain ⟨s', hc⟩ := h.clean
      simp only [hb, List.flatten_nil, List.append_nil, after, Option.some.injEq, Prod.mk.injEq, beq_iff_eq] at hc
      have hp : g.pend = [] := Classical.byContradiction fun hp => by
        have := h.pend hp
        rw [hc.2] at this
        cases this
      have ht : text = [] := by rw [h.text, hp, hb]; rfl
      have hread : g.read n = (.ok (0, []), { g with inner := i, buf := [] }) := by
        unfold GzStream.read
        rw [if_neg (by omega)]
        simp only [hbe, if_true, hi, List.isEmpty_nil, hc.2]
      refine ⟨[], _, [], [], hread, by simp, fun _ => ht, by simpa using ht, hd, h.status, ?_, ?_, h.pend, fun _ => Or.inl rfl, ?_⟩
      · simp [hp, unzip]
      · exact ⟨g.state, by simp [after, hc.2]⟩
      · have := h.audible
        rw [hb] at this
        exact this
    | cons b bs =>
      obtain ⟨hne, i, hi, hd⟩ := h.inner
      have hread : g.read n = GzStream.inflate { g with inner := i, buf := b } n := by
        unfold GzStream.read
        rw [if_neg (by omega)]
        have hbe2 : b.isEmpty = false := by
          cases b
          · exact absurd rfl hne
          · rfl
        simp only [hbe, if_true, hi, hbe2, Bool.false_eq_true, if_false]
      have haud := h.audible
      rw [hb] at haud
      refine step _ hread bs (gzOk_inflate { g with inner := i, buf := b } bs text hd h.status ?_ ?_ h.pend haud.next
        ?_ hne n hn hn')
      · rw [h.text, hb]; simp
      · obtain ⟨s', hc⟩ := h.clean
        rw [hb] at hc
        exact ⟨s', by simpa using hc⟩
      · intro _ hsil
        exact haud [[]] b bs [] b g.state _ rfl rfl hne rfl (Or.inl ⟨rfl, by simp⟩) hsil
  · have hbe : g.buf.isEmpty = false := by
      cases hh : g.buf
      · exact absurd hh hb
      · rfl
    have hread : g.read n = g.inflate n := by
      unfold GzStream.read
      rw [if_neg (by omega)]
      simp only [hbe, Bool.false_eq_true, if_false]
    refine step g hread rest (gzOk_inflate g rest text h.inner h.status h.text h.clean h.pend h.audible ?_ hb n hn hn')
    intro hp hsil
    have hst : g.status = .streamEnd := by
      rcases h.edge hp with h | h
      · exact absurd h hb
      · exact h
    exact h.audible [] g.buf rest [] g.buf g.state _ rfl rfl hb rfl (Or.inr (by rw [hst]; rfl)) hsil

theorem gzOk_reads {m : InStream} {z : Inflater} : ∀ (ns : List Nat) (g : GzStream m z) (rest : List Bytes) (text : Bytes),
    GzOk g rest text → Sizes ns → FullReads text ns (g.reads ns) := by
  intro ns
  induction ns with
  | nil => intro g rest text _ _; exact .nil _
  | cons n ns ih =>
    intro g rest text h hs
    obtain ⟨hn, hn'⟩ := hs n (by simp)
    have hs' : Sizes ns := fun m hm => hs m (by simp [hm])
    obtain ⟨out, g', t, rest', h1, h2, h3, h4, h5⟩ := gzOk_read g rest text h n hn hn'
    simp only [GzStream.reads, h1]
    have := ih g' rest' t h5 hs'
    by_cases ho : out = []
    · have ht := h3 ho
      subst ho
      rw [ht] at h4 ⊢
      simp only [List.nil_append] at h4
      subst h4
      exact .done _ _ _ this
    · rw [h4]
      exact .more _ _ _ _ _ ho h2 this

/-- A new stream over one that delivers the blocks of a gzip file. -/
theorem new_gzOk {m : InStream} {z : Inflater} {s : m.σ} {blocks : List Bytes} (hd : Delivers m s blocks)
    {ms : List (Bytes × Bytes)} {contents : Bytes} (h : GzFile z ms blocks.flatten contents) (ha : Audible z blocks) :
    GzOk (GzStream.new z s) blocks contents := by
  obtain ⟨h1, h2⟩ := gzFile_after h
  refine ⟨hd, by simp [GzStream.new], ?_, h1, fun h => absurd rfl h, fun _ => Or.inl rfl, ?_⟩
  · rw [← h2]; rfl
  · intro pre b post x y s' f' e1 e2 e3 e4 e5 e6
    cases pre with
    | nil =>
      simp only [List.nil_append, List.cons.injEq] at e1
      have := e1.1
      rw [e2] at this
      exact absurd (List.append_eq_nil_iff.1 this.symm).2 e3
    | cons p pre =>
      simp only [List.cons_append, List.cons.injEq] at e1
      obtain ⟨rfl, e1⟩ := e1
      refine ha pre b post x y s' f' e1 e2 e3 (by simpa [GzStream.new] using e4) ?_ e6
      rcases e5 with ⟨h, _⟩ | h
      · exact Or.inl h
      · exact Or.inr h

/-! ## A test -/

/-- The test for one block. -/
def checkBlock (z : Inflater) (post : Bytes) : (start : Bool) → z.σ → (fresh : Bool) → Bytes → Bool
  | _, _, _, [] => true
  | start, s, fresh, b :: bs =>
    (!(start || fresh) || !silent z s (b :: bs) || (unzip z s (b :: bs ++ post)).isEmpty) &&
      match z.feed s b with
      | .bad => true
      | .last => checkBlock z post false z.init true bs
      | .more _ s' => checkBlock z post false s' false bs

theorem checkBlock_sound (z : Inflater) (post b : Bytes) : ∀ (start : Bool) (s : z.σ) (fresh : Bool),
    checkBlock z post start s fresh b = true → ∀ x y s' f', b = x ++ y → y ≠ [] → after z s fresh x = some (s', f') →
      ((x = [] ∧ start = true) ∨ f' = true) → silent z s' y = true → unzip z s' (y ++ post) = [] := by
  induction b with
  | nil =>
    intro start s fresh _ x y s' f' hb hy
    obtain ⟨rfl, rfl⟩ := List.append_eq_nil_iff.1 hb.symm
    exact absurd rfl hy
  | cons c cs ih =>
    intro start s fresh hc x y s' f' hb hy ha he hsil
    simp only [checkBlock, Bool.and_eq_true] at hc
    obtain ⟨h1, h2⟩ := hc
    cases x with
    | nil =>
      simp only [List.nil_append] at hb
      subst hb
      simp only [after, Option.some.injEq, Prod.mk.injEq] at ha
      obtain ⟨rfl, rfl⟩ := ha
      have hst : (start || fresh) = true := by
        rcases he with ⟨_, h⟩ | h <;> simp [h]
      simpa [hst, hsil] using h1
    | cons d x =>
      simp only [List.cons_append, List.cons.injEq] at hb
      obtain ⟨rfl, rfl⟩ := hb
      have he' : (x = [] ∧ false = true) ∨ f' = true := by
        rcases he with ⟨h, _⟩ | h
        · cases h
        · exact Or.inr h
      simp only [after] at ha
      cases hf : z.feed s c with
      | bad => rw [hf] at ha; cases ha
      | last => rw [hf] at ha h2; exact ih _ _ _ h2 x y s' f' rfl hy ha he' hsil
      | more out t => rw [hf] at ha h2; exact ih _ _ _ h2 x y s' f' rfl hy ha he' hsil

/-- The test for blocks. -/
def checkBlocks (z : Inflater) : z.σ → (fresh : Bool) → List Bytes → Bool
  | _, _, [] => true
  | s, fresh, b :: bs =>
    checkBlock z bs.flatten true s fresh b &&
      match after z s fresh b with
      | none => true
      | some p => checkBlocks z p.1 p.2 bs

theorem checkBlocks_sound (z : Inflater) (blocks : List Bytes) : ∀ (s : z.σ) (fresh : Bool),
    checkBlocks z s fresh blocks = true → ∀ pre b post x y s' f', blocks = pre ++ b :: post → b = x ++ y → y ≠ [] →
      after z s fresh (pre.flatten ++ x) = some (s', f') → (x = [] ∨ f' = true) → silent z s' y = true →
      unzip z s' (y ++ post.flatten) = [] := by
  induction blocks with
  | nil => intro s fresh _ pre b post x y s' f' h; simp at h
  | cons c cs ih =>
    intro s fresh hc pre b post x y s' f' hb hxy hy ha he hsil
    simp only [checkBlocks, Bool.and_eq_true] at hc
    obtain ⟨h1, h2⟩ := hc
    cases pre with
    | nil =>
      simp only [List.nil_append, List.cons.injEq] at hb
      obtain ⟨rfl, rfl⟩ := hb
      exact checkBlock_sound z _ _ _ _ _ h1 x y s' f' hxy hy (by simpa using ha)
        (he.imp (fun h => ⟨h, rfl⟩) id) hsil
    | cons d pre =>
      simp only [List.cons_append, List.cons.injEq] at hb
      obtain ⟨rfl, rfl⟩ := hb
      rw [List.flatten_cons, List.append_assoc, after_append] at ha
      cases hd : after z s fresh c with
      | none => rw [hd] at ha; cases ha
      | some p => rw [hd] at ha h2; exact ih _ _ h2 pre b post x y s' f' rfl hxy hy ha he hsil

theorem audible_of_check {z : Inflater} {blocks : List Bytes} (h : checkBlocks z z.init true blocks = true) : Audible z blocks :=
  checkBlocks_sound z blocks z.init true h

end Mlio
