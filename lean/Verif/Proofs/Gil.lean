import Verif.Spec.Gil
import Verif.Props.Pipeline

/-! # Lemmas on readers used from Python -/

namespace Mlio
open Spec

section
variable {α ε : Type} {m : Machine (Batch α)} {P Q : Nat} {dec : Batch α → Except Err (Option ε)} {rel : Bool} {L : Logs m}

/-- Whether the source node's body can run depends only on these. -/
theorem pProduce_congr {s s' : PState m ε} (h1 : s'.status = s.status) (h2 : s'.active = s.active) (h3 : s'.cached = s.cached)
    (h4 : s'.src = s.src) : (pProduce s').isSome = (pProduce s).isSome := by
  unfold pProduce
  rw [h1, h2, h3, h4]
  split
  · split <;> rfl
  · rfl

theorem pProduce_running {s : PState m ε} (h : (pProduce s).isSome) : s.status = .running ∧ s.active = true ∧ s.cached = none := by
  unfold pProduce at h
  split at h
  · rename_i hc
    exact ⟨hc.1, hc.2.1, by simpa using hc.2.2⟩
  · simp at h

/-- The invariant. -/
structure GInv (rel : Bool) (g : GState m ε) : Prop where
  len : g.bodies.length = g.p.decoding.length
  src : g.srcBody ≠ none → (pProduce g.p).isSome
  waiting : g.p.consumer = .waiting → g.held = false
  joining : g.p.consumer = .joining → g.held = !rel
  run : g.bodies ≠ [] → g.p.status = .running

theorem pPop_same (s : PState m ε) : (pPop s).status = s.status ∧ (pPop s).active = s.active ∧ (pPop s).cached = s.cached ∧
    (pPop s).src = s.src ∧ (pPop s).decoding = s.decoding ∧ (pPop s).consumer = .idle := by
  unfold pPop; split <;> simp

/-- A move is a move of the pipeline or leaves the pipeline as it is. -/
theorem gstep_proj {a : GAct} {g g' : GState m ε} (h : gstep rel L P Q dec a g = some g') :
    (∃ b, a = .sys b ∧ pstep P Q dec b g.p = some g'.p) ∨ ((∀ b, a ≠ .sys b) ∧ g'.p = g.p) := by
  cases a with
  | sys b =>
    left
    refine ⟨b, rfl, ?_⟩
    simp only [gstep] at h
    cases b <;> simp only at h <;> (try split at h) <;> first
      | (obtain ⟨p, hp, rfl⟩ := Option.map_eq_some_iff.mp h; exact hp)
      | (simp at h)
  | srcBegin => right; simp only [gstep] at h; split at h <;> simp at h; subst h; exact ⟨nofun, rfl⟩
  | srcLog =>
    right; simp only [gstep] at h
    split at h
    · split at h <;> simp at h; subst h; exact ⟨nofun, rfl⟩
    · simp at h
  | decBegin i =>
    right; simp only [gstep] at h
    split at h
    · split at h <;> simp at h; subst h; exact ⟨nofun, rfl⟩
    · simp at h
  | decLog i =>
    right; simp only [gstep] at h
    split at h
    · split at h <;> simp at h; subst h; exact ⟨nofun, rfl⟩
    · simp at h
  | switch => right; simp only [gstep] at h; split at h <;> simp at h; subst h; exact ⟨nofun, rfl⟩

theorem GInv.init : GInv (m := m) (ε := ε) rel (GState.init m ε) := by
  constructor <;> simp [GState.init, PState.init]

theorem pSend_some {s s' : PState m ε} (h : pSend P s = some s') : ∃ b, s.status = .running ∧ s.cached = some b ∧
    s' = { s with cached := none, count := s.count + 1, decoding := s.decoding ++ [b] } := by
  unfold pSend at h
  split at h
  · rename_i hc
    split at h
    · rename_i b hb
      simp only [Option.some.injEq] at h
      exact ⟨b, hc.1, hb, h.symm⟩
    · simp at h
  · simp at h

theorem pDecode_some {s s' : PState m ε} {i : Nat} (h : pDecode dec i s = some s') : s'.decoding = s.decoding.eraseIdx i ∧
    i < s.decoding.length ∧ s'.status = s.status ∧ s'.active = s.active ∧ s'.cached = s.cached ∧ s'.src = s.src ∧ s'.consumer = s.consumer := by
  unfold pDecode at h
  split at h
  · split at h
    · rename_i b hb
      have := (List.getElem?_eq_some_iff.mp hb).1
      split at h <;> simp only [Option.some.injEq] at h <;> subst h <;> exact ⟨rfl, this, rfl, rfl, rfl, rfl, rfl⟩
    · simp at h
  · simp at h

theorem pDecode_isSome {s : PState m ε} {i : Nat} (hr : s.status = .running) (hi : i < s.decoding.length) :
    ∃ s', pDecode dec i s = some s' := by
  unfold pDecode
  rw [if_pos hr, List.getElem?_eq_getElem hi]
  simp only
  split <;> exact ⟨_, rfl⟩

theorem pProduce_some {s s' : PState m ε} (h : pProduce s = some s') : s'.decoding = s.decoding ∧ s'.consumer = s.consumer ∧
    s'.status = s.status := by
  unfold pProduce at h
  split at h
  · split at h <;> cases h <;> exact ⟨rfl, rfl, rfl⟩
  · simp at h

/-- What the moves that concern neither source nor decode node nor the consumer do. -/
theorem quiet_step {s s' : PState m ε} {a : PAct} (ha : a = .forward ∨ a = .qStart ∨ a = .qStep ∨ a = .dropQueue)
    (h : pstep P Q dec a s = some s') : s'.decoding = s.decoding ∧ s'.status = s.status ∧ s'.active = s.active ∧
    s'.cached = s.cached ∧ s'.src = s.src ∧ s'.consumer = s.consumer := by
  rcases ha with rfl | rfl | rfl | rfl
  · simp only [pstep, pForward] at h
    split at h
    · split at h <;> cases h <;> exact ⟨rfl, rfl, rfl, rfl, rfl, rfl⟩
    · simp at h
  · simp only [pstep, pQStart] at h
    split at h
    · split at h <;> cases h <;> exact ⟨rfl, rfl, rfl, rfl, rfl, rfl⟩
    · simp at h
  · simp only [pstep, pQStep] at h
    split at h
    · split at h
      · simp at h
      · simp only [Option.some.injEq] at h; subst h; exact ⟨rfl, rfl, rfl, rfl, rfl, rfl⟩
      · split at h
        · split at h <;> (simp only [Option.some.injEq] at h; subst h; exact ⟨rfl, rfl, rfl, rfl, rfl, rfl⟩)
        · simp only [Option.some.injEq] at h; subst h; exact ⟨rfl, rfl, rfl, rfl, rfl, rfl⟩
    · simp at h
  · simp only [pstep] at h
    split at h
    · simp only [Option.some.injEq] at h; subst h; exact ⟨rfl, rfl, rfl, rfl, rfl, rfl⟩
    · simp at h

/-- What the consumer's moves do to the graph. -/
theorem pCStep_same {s s' : PState m ε} (h : pCStep s = some s') : s'.decoding = s.decoding ∧ s'.status = s.status ∧ s'.active = s.active ∧
    s'.cached = s.cached ∧ s'.src = s.src ∧ (s'.consumer = .idle ∨ s'.consumer = .waiting) := by
  unfold pCStep at h
  split at h
  · rename_i hc
    split at h
    · split at h
      · simp only [Option.some.injEq] at h; subst h; exact ⟨rfl, rfl, rfl, rfl, rfl, .inl rfl⟩
      · simp only [Option.some.injEq] at h; subst h
        obtain ⟨h1, h2, h3, h4, h5, h6⟩ := pPop_same { s with read := s.fill, fill := s.read, qAsleep := false }
        exact ⟨h5, h1, h2, h3, h4, .inl h6⟩
    · simp only [Option.some.injEq] at h; subst h; exact ⟨rfl, rfl, rfl, rfl, rfl, .inr hc.1⟩
  · simp at h

theorem pCallRead_same {s s' : PState m ε} (h : pCallRead s = some s') : s'.decoding = s.decoding ∧
    (s.status = .running → s'.status = s.status ∧ s'.active = s.active ∧ s'.cached = s.cached ∧ s'.src = s.src) ∧
    (s'.consumer = .idle ∨ s'.consumer = .waiting) := by
  unfold pCallRead at h
  split at h
  · split at h
    · split at h
      · rename_i hn
        simp only [Option.some.injEq] at h; subst h
        exact ⟨rfl, fun hr => (by rw [hn] at hr; simp at hr), .inr rfl⟩
      · simp only [Option.some.injEq] at h; subst h; exact ⟨rfl, fun _ => ⟨rfl, rfl, rfl, rfl⟩, .inr rfl⟩
    · simp only [Option.some.injEq] at h; subst h
      obtain ⟨h1, h2, h3, h4, h5, h6⟩ := pPop_same s
      exact ⟨h5, fun _ => ⟨h1, h2, h3, h4⟩, .inl h6⟩
  · simp at h

/-- The invariant is kept. -/
theorem GInv.step {a : GAct} {g g' : GState m ε} (h : GInv rel g) (hf : g.p.status = .notStarted → g.p.decoding = [])
    (hg : gstep rel L P Q dec a g = some g') : GInv rel g' := by
  cases a with
  | srcBegin =>
    simp only [gstep] at hg
    split at hg
    · rename_i hc
      simp only [Option.some.injEq] at hg; subst hg
      exact ⟨h.len, fun _ => hc.2.2, h.waiting, h.joining, h.run⟩
    · simp at hg
  | srcLog =>
    simp only [gstep] at hg
    split at hg
    · rename_i k hk
      split at hg
      · simp at hg
      · simp only [Option.some.injEq] at hg; subst hg
        exact ⟨h.len, fun _ => h.src (by rw [hk]; simp), h.waiting, h.joining, h.run⟩
    · simp at hg
  | decBegin i =>
    simp only [gstep] at hg
    split at hg
    · rename_i hc
      split at hg
      · simp only [Option.some.injEq] at hg; subst hg
        exact ⟨by simpa using h.len, h.src, h.waiting, h.joining, fun _ => hc.1⟩
      · simp at hg
    · simp at hg
  | decLog i =>
    simp only [gstep] at hg
    split at hg
    · split at hg
      · simp at hg
      · simp only [Option.some.injEq] at hg; subst hg
        exact ⟨by simpa using h.len, h.src, h.waiting, h.joining, fun hb => h.run (by intro h0; simp [h0] at hb)⟩
    · simp at hg
  | switch =>
    simp only [gstep] at hg
    split at hg
    · rename_i hi
      simp only [Option.some.injEq] at hg; subst hg
      exact ⟨h.len, h.src, fun hc => (by rw [hi] at hc; simp at hc), fun hc => (by rw [hi] at hc; simp at hc), h.run⟩
    · simp at hg
  | sys a =>
    cases a with
    | produce =>
      simp only [gstep] at hg
      split at hg
      · obtain ⟨p, hp, rfl⟩ := Option.map_eq_some_iff.mp hg
        obtain ⟨h1, h2, h3⟩ := pProduce_some hp
        exact ⟨by rw [h.len, h1], fun hn => absurd rfl hn, fun hc => h.waiting (h2 ▸ hc), fun hc => h.joining (h2 ▸ hc),
          fun hb => h3.trans (h.run hb)⟩
      · simp at hg
    | send =>
      simp only [gstep] at hg
      obtain ⟨p, hp, rfl⟩ := Option.map_eq_some_iff.mp hg
      obtain ⟨b, h1, h2, rfl⟩ := pSend_some hp
      refine ⟨by simp [h.len], fun hn => ?_, h.waiting, h.joining, fun _ => h1⟩
      have := (pProduce_running (h.src hn)).2.2
      rw [h2] at this; simp at this
    | decode i =>
      simp only [gstep] at hg
      split at hg
      · obtain ⟨p, hp, rfl⟩ := Option.map_eq_some_iff.mp hg
        obtain ⟨h1, h2, h3, h4, h5, h6, h7⟩ := pDecode_some hp
        exact ⟨by simp only [h1, List.length_eraseIdx, h.len], fun hn => by rw [pProduce_congr h3 h4 h5 h6]; exact h.src hn,
          fun hc => h.waiting (h7 ▸ hc), fun hc => h.joining (h7 ▸ hc), fun hb => h3.trans (h.run (by intro h0; simp [h0] at hb))⟩
      · simp at hg
    | dropDecode i =>
      simp only [gstep] at hg
      split at hg
      · obtain ⟨p, hp, rfl⟩ := Option.map_eq_some_iff.mp hg
        simp only [pstep] at hp
        split at hp
        · simp only [Option.some.injEq] at hp; subst hp
          exact ⟨by simp only [List.length_eraseIdx, h.len], fun hn => (by refine (pProduce_congr (s := g.p) ?_ ?_ ?_ ?_).trans (h.src hn) <;> rfl),
            h.waiting, h.joining, fun hb => h.run (by intro h0; simp [h0] at hb)⟩
        · simp at hp
      · simp at hg
    | finish =>
      simp only [gstep] at hg
      split at hg
      · rename_i hn
        obtain ⟨p, hp, rfl⟩ := Option.map_eq_some_iff.mp hg
        simp only [pstep, pFinish] at hp
        split at hp
        · rename_i hw
          simp only [Option.some.injEq] at hp; subst hp
          refine ⟨h.len, fun h' => absurd hn h', h.waiting, h.joining, fun hb => absurd ?_ hb⟩
          have hd : g.p.decoding = [] := by
            have hw := hw.2
            unfold PState.waitOver PState.quiet at hw
            split at hw <;> simp at hw <;> simp [hw]
          exact List.length_eq_zero_iff.mp (by rw [h.len, hd]; rfl)
        · simp at hp
      · simp at hg
    | cStep =>
      simp only [gstep] at hg
      obtain ⟨p, hp, rfl⟩ := Option.map_eq_some_iff.mp hg
      obtain ⟨h1, h2, h3, h4, h5, h6⟩ := pCStep_same hp
      refine ⟨by rw [h.len, h1], fun hn => by rw [pProduce_congr h2 h3 h4 h5]; exact h.src hn, fun hc => ?_, fun hc => ?_, fun hb => h2.trans (h.run hb)⟩
      · simp only at hc ⊢; rw [hc]; rfl
      · simp only at hc; rw [hc] at h6; simp at h6
    | callRead =>
      simp only [gstep] at hg
      split at hg
      · obtain ⟨p, hp, rfl⟩ := Option.map_eq_some_iff.mp hg
        obtain ⟨h1, h2, h6⟩ := pCallRead_same hp
        refine ⟨by rw [h.len, h1], fun hn => ?_, fun hc => ?_, fun hc => ?_, fun hb => (h2 (h.run hb)).1.trans (h.run hb)⟩
        · have hs := h.src hn
          obtain ⟨h3, h4, h5, h7⟩ := h2 (pProduce_running hs).1
          rw [pProduce_congr h3 h4 h5 h7]; exact hs
        · simp only at hc ⊢; rw [hc]; rfl
        · simp only at hc; rw [hc] at h6; simp at h6
      · simp at hg
    | callReset =>
      simp only [gstep] at hg
      split at hg
      · obtain ⟨p, hp, rfl⟩ := Option.map_eq_some_iff.mp hg
        simp only [pstep, pCallReset] at hp
        split at hp
        · split at hp
          · rename_i hi hn
            simp only [Option.some.injEq] at hp; subst hp
            have h0 : g.bodies.length = 0 := by rw [h.len, hf hn]; rfl
            refine ⟨by rw [h0]; rfl, fun h' => ?_, fun hc => ?_, fun hc => ?_, fun hb => absurd (List.length_eq_zero_iff.mp h0) hb⟩
            · have := (pProduce_running (h.src h')).1
              rw [hn] at this; simp at this
            · simp [PState.afterStop] at hc
            · simp [PState.afterStop] at hc
          · simp only [Option.some.injEq] at hp; subst hp
            exact ⟨h.len, fun hn => (by refine (pProduce_congr (s := g.p) ?_ ?_ ?_ ?_).trans (h.src hn) <;> rfl), fun hc => (by simp at hc),
              fun _ => (by simp), h.run⟩
        · simp at hp
      · simp at hg
    | cJoin =>
      simp only [gstep] at hg
      obtain ⟨p, hp, rfl⟩ := Option.map_eq_some_iff.mp hg
      simp only [pstep, pCJoin] at hp
      split at hp
      · simp only [Option.some.injEq] at hp; subst hp
        exact ⟨rfl, fun h' => absurd rfl h', fun hc => (by simp [PState.afterStop] at hc), fun hc => (by simp [PState.afterStop] at hc),
          fun hb => absurd rfl hb⟩
      · simp at hp
    | forward | qStart | qStep | dropQueue =>
      simp only [gstep] at hg
      obtain ⟨p, hp, rfl⟩ := Option.map_eq_some_iff.mp hg
      obtain ⟨h1, h2, h3, h4, h5, h6⟩ := quiet_step (by simp) hp
      exact ⟨by rw [h.len, h1], fun hn => by rw [pProduce_congr h2 h3 h4 h5]; exact h.src hn,
        fun hc => h.waiting (h6 ▸ hc), fun hc => h.joining (h6 ▸ hc), fun hb => h2.trans (h.run hb)⟩

theorem grun_append (as bs : List GAct) (g : GState m ε) :
    grun rel L P Q dec (as ++ bs) g = (grun rel L P Q dec as g).bind (grun rel L P Q dec bs) := by
  induction as generalizing g with
  | nil => rfl
  | cons a as ih =>
    simp only [List.cons_append, grun]
    cases gstep rel L P Q dec a g with
    | none => rfl
    | some g' => exact ih g'

theorem GReachable.snoc {g g' : GState m ε} {a : GAct} (h : GReachable rel L P Q dec g) (hg : gstep rel L P Q dec a g = some g') :
    GReachable rel L P Q dec g' := by
  obtain ⟨as, h⟩ := h
  exact ⟨as ++ [a], by rw [grun_append, h, Option.bind_some, grun, hg]; rfl⟩

theorem GReachable.run {g g' : GState m ε} (h : GReachable rel L P Q dec g) {as : List GAct} (hg : grun rel L P Q dec as g = some g') :
    GReachable rel L P Q dec g' := by
  obtain ⟨bs, h⟩ := h
  exact ⟨bs ++ as, by rw [grun_append, h]; exact hg⟩

/-- What happens in the pipeline during a run. -/
theorem grun_proj (as : List GAct) (hall : ∀ a ∈ as, a.isUser = false) {g g' : GState m ε}
    (h : grun rel L P Q dec as g = some g') :
    ∃ bs, (∀ b ∈ bs, b.isCall = false) ∧ prun P Q dec bs g.p = some g'.p := by
  induction as generalizing g with
  | nil => simp [grun] at h; subst h; exact ⟨[], by simp, rfl⟩
  | cons a as ih =>
    simp only [grun] at h
    cases hs : gstep rel L P Q dec a g with
    | none => rw [hs] at h; simp at h
    | some g1 =>
      rw [hs] at h
      obtain ⟨bs, h1, h2⟩ := ih (fun b hb => hall b (List.mem_cons_of_mem a hb)) h
      rcases gstep_proj hs with ⟨b, rfl, hb⟩ | ⟨_, hb⟩
      · refine ⟨b :: bs, ?_, ?_⟩
        · intro c hc
          rcases List.mem_cons.mp hc with rfl | hc
          · exact hall (.sys c) (List.mem_cons_self ..)
          · exact h1 c hc
        · rw [prun, hb]; exact h2
      · exact ⟨bs, h1, hb ▸ h2⟩

/-- Reachable states. -/
theorem greachable_inv (hP : 0 < P) (hm : Sources m) {g : GState m ε} (h : GReachable rel L P Q dec g) :
    Reachable P Q dec g.p ∧ GInv rel g := by
  obtain ⟨as, h⟩ := h
  have key : ∀ (as : List GAct) (g0 : GState m ε), Reachable P Q dec g0.p → GInv rel g0 →
      grun rel L P Q dec as g0 = some g → Reachable P Q dec g.p ∧ GInv rel g := by
    intro as
    induction as with
    | nil => intro g0 h1 h2 h; simp [grun] at h; subst h; exact ⟨h1, h2⟩
    | cons a as ih =>
      intro g0 h1 h2 h
      simp only [grun] at h
      cases hs : gstep rel L P Q dec a g0 with
      | none => rw [hs] at h; simp at h
      | some g1 =>
        rw [hs] at h
        refine ih g1 ?_ (h2.step ?_ hs) h
        · rcases gstep_proj hs with ⟨b, rfl, hb⟩ | ⟨_, hb⟩
          · obtain ⟨bs, hr⟩ := h1
            exact ⟨bs ++ [b], by rw [prun_append, hr, Option.bind_some, prun, hb]; rfl⟩
          · rw [hb]; exact h1
        · intro hn
          obtain ⟨bs, t, pos, _, hi⟩ := reachable_inv hP hm h1
          exact (hi.fresh hn).2.2.1
  exact key as _ ⟨[], rfl⟩ GInv.init h

/-- The running body of the source node can go on. -/
theorem src_moves {g : GState m ε} (h : GInv rel g) (hn : g.srcBody ≠ none) (hb : g.held = false ∨ ¬ WillLog g) :
    ∃ a g', a.isUser = false ∧ gstep rel L P Q dec a g = some g' := by
  cases hs : g.srcBody with
  | none => exact absurd hs hn
  | some k =>
    cases k with
    | zero =>
      obtain ⟨p, hp⟩ := Option.isSome_iff_exists.mp (h.src hn)
      exact ⟨.sys .produce, _, rfl, by simp only [gstep]; rw [if_pos hs]; simp only [pstep]; rw [hp]; rfl⟩
    | succ k =>
      have hh : g.held = false := hb.resolve_right fun hw => hw (.inl ⟨k, hs⟩)
      exact ⟨.srcLog, _, rfl, by simp only [gstep]; rw [hs]; simp only [hh]; rfl⟩

/-- A message of the decode node can go on. -/
theorem body_moves {g : GState m ε} (h : GInv rel g) (hr : g.p.status = .running) {i : Nat} (hi : i < g.p.decoding.length)
    (hb : g.held = false ∨ ¬ WillLog g) : ∃ a g', a.isUser = false ∧ gstep rel L P Q dec a g = some g' := by
  have hi' : i < g.bodies.length := by rw [h.len]; exact hi
  have hg : g.bodies[i]? = some g.bodies[i] := List.getElem?_eq_getElem hi'
  cases hs : g.bodies[i] with
  | none =>
    rw [hs] at hg
    cases hc : g.p.cancelled with
    | false =>
      exact ⟨.decBegin i, _, rfl, by
        simp only [gstep]; rw [if_pos ⟨hr, hc, hg⟩, List.getElem?_eq_getElem hi]⟩
    | true =>
      exact ⟨.sys (.dropDecode i), _, rfl, by
        simp only [gstep]; rw [if_pos hg]; simp only [pstep]; rw [if_pos ⟨hr, hc, hi⟩]; rfl⟩
  | some k =>
    rw [hs] at hg
    cases k with
    | zero =>
      obtain ⟨p, hp⟩ := pDecode_isSome (dec := dec) hr hi
      exact ⟨.sys (.decode i), _, rfl, by simp only [gstep]; rw [if_pos hg]; simp only [pstep]; rw [hp]; rfl⟩
    | succ k =>
      have hh : g.held = false := hb.resolve_right fun hw => hw (.inr ⟨k, hs ▸ List.getElem_mem hi'⟩)
      exact ⟨.decLog i, _, rfl, by simp only [gstep]; rw [hg]; simp only [hh]; rfl⟩

/-- While the user is inside a call and nothing in the background needs the lock that the user's thread has, something can happen. -/
theorem g_progress (hP : 0 < P) (hQ : 0 < Q) (hm : Sources m) {g : GState m ε} (hr : GReachable rel L P Q dec g)
    (hc : g.p.consumer ≠ .idle) (hb : g.held = false ∨ ¬ WillLog g) :
    ∃ a g', a.isUser = false ∧ gstep rel L P Q dec a g = some g' := by
  obtain ⟨hp, h⟩ := greachable_inv hP hm hr
  obtain ⟨bs, t, pos, hs, hi⟩ := reachable_inv hP hm hp
  obtain ⟨a, s', h1, h2, h3⟩ := hi.progress_before hP hQ hs hc
  cases a with
  | produce =>
    have hsome : (pProduce g.p).isSome := by
      simp only [pstep] at h3; rw [h3]; rfl
    cases hb' : g.srcBody with
    | none => exact ⟨.srcBegin, _, rfl, by simp only [gstep]; rw [if_pos ⟨hb', h2 rfl, hsome⟩]⟩
    | some k => exact src_moves h (by rw [hb']; simp) hb
  | decode i =>
    simp only [pstep] at h3
    have hlt := (pDecode_some h3).2.1
    refine body_moves h ?_ hlt hb
    unfold pDecode at h3
    split at h3
    · assumption
    · simp at h3
  | dropDecode i =>
    simp only [pstep] at h3
    split at h3
    · rename_i hx
      exact body_moves h hx.1 hx.2.2 hb
    · simp at h3
  | finish =>
    cases hb' : g.srcBody with
    | none => exact ⟨.sys .finish, _, rfl, by simp only [gstep]; rw [if_pos hb', h3]; rfl⟩
    | some k => exact src_moves h (by rw [hb']; simp) hb
  | callRead => simp [PAct.isCall] at h1
  | callReset => simp [PAct.isCall] at h1
  | send => exact ⟨.sys .send, _, rfl, by simp only [gstep]; rw [h3]; rfl⟩
  | forward => exact ⟨.sys .forward, _, rfl, by simp only [gstep]; rw [h3]; rfl⟩
  | qStart => exact ⟨.sys .qStart, _, rfl, by simp only [gstep]; rw [h3]; rfl⟩
  | qStep => exact ⟨.sys .qStep, _, rfl, by simp only [gstep]; rw [h3]; rfl⟩
  | dropQueue => exact ⟨.sys .dropQueue, _, rfl, by simp only [gstep]; rw [h3]; rfl⟩
  | cStep => exact ⟨.sys .cStep, _, rfl, by simp only [gstep]; rw [h3]; rfl⟩
  | cJoin => exact ⟨.sys .cJoin, _, rfl, by simp only [gstep]; rw [h3]; rfl⟩

theorem mem_set_of_ne {β : Type} {l : List β} {x y z : β} {i : Nat} (hx : x ∈ l) (hi : l[i]? = some y) (hne : y ≠ x) : x ∈ l.set i z := by
  obtain ⟨j, hj, rfl⟩ := List.getElem_of_mem hx
  have hij : i ≠ j := by
    rintro rfl
    rw [List.getElem?_eq_getElem hj] at hi
    exact hne (Option.some.inj hi).symm
  rw [List.mem_iff_getElem?]
  exact ⟨j, by rw [List.getElem?_set_ne hij, List.getElem?_eq_getElem hj]⟩

theorem mem_eraseIdx_of_ne {β : Type} {l : List β} {x y : β} {i : Nat} (hx : x ∈ l) (hi : l[i]? = some y) (hne : y ≠ x) : x ∈ l.eraseIdx i := by
  have := (perm_eraseIdx l i y hi).mem_iff.mp hx
  rcases List.mem_cons.mp this with h | h
  · exact absurd h.symm hne
  · exact h

/-- The user's thread has the lock and joins the background thread, which waits for the lock. -/
structure GHang (g : GState m ε) : Prop where
  len : g.bodies.length = g.p.decoding.length
  joining : g.p.consumer = .joining
  held : g.held = true
  running : g.p.status = .running
  cancelled : g.p.cancelled = true
  log : WillLog g

theorem GHang.step {a : GAct} {g g' : GState m ε} (h : GHang g) (hg : gstep rel L P Q dec a g = some g') : GHang g' := by
  cases a with
  | srcBegin => simp [gstep, h.cancelled] at hg
  | srcLog => simp only [gstep, h.held] at hg; split at hg <;> simp at hg
  | decBegin i => simp [gstep, h.cancelled] at hg
  | decLog i => simp only [gstep, h.held] at hg; split at hg <;> simp at hg
  | switch => simp [gstep, h.joining] at hg
  | sys a =>
    cases a with
    | produce =>
      simp only [gstep] at hg
      split at hg
      · rename_i hz
        obtain ⟨p, hp, rfl⟩ := Option.map_eq_some_iff.mp hg
        have hlog : ∃ k, some (k + 1) ∈ g.bodies := by
          rcases h.log with ⟨k, hk⟩ | hk
          · rw [hz] at hk; simp at hk
          · exact hk
        simp only [pstep, pProduce] at hp
        split at hp
        · split at hp <;> cases hp
          · exact ⟨h.len, h.joining, h.held, h.running, h.cancelled, .inr hlog⟩
          · exact ⟨h.len, h.joining, h.held, h.running, h.cancelled, .inr hlog⟩
          · exact ⟨h.len, h.joining, h.held, h.running, rfl, .inr hlog⟩
        · simp at hp
      · simp at hg
    | send =>
      simp only [gstep] at hg
      obtain ⟨p, hp, rfl⟩ := Option.map_eq_some_iff.mp hg
      obtain ⟨b, h1, h2, rfl⟩ := pSend_some hp
      refine ⟨by simp [h.len], h.joining, h.held, h.running, h.cancelled, ?_⟩
      rcases h.log with hk | ⟨k, hk⟩
      · exact .inl hk
      · exact .inr ⟨k, List.mem_append_left _ hk⟩
    | decode i =>
      simp only [gstep] at hg
      split at hg
      · rename_i hz
        obtain ⟨p, hp, rfl⟩ := Option.map_eq_some_iff.mp hg
        obtain ⟨h1, h2, h3, _, _, _, h7⟩ := pDecode_some hp
        refine ⟨by simp only [h1, List.length_eraseIdx, h.len], h7.trans h.joining, h.held, h3.trans h.running, ?_, ?_⟩
        · simp only [pstep, pDecode] at hp
          split at hp
          · split at hp
            · split at hp <;> cases hp
              · exact h.cancelled
              · rfl
            · simp at hp
          · simp at hp
        · rcases h.log with hk | ⟨k, hk⟩
          · exact .inl hk
          · exact .inr ⟨k, mem_eraseIdx_of_ne hk hz (by simp)⟩
      · simp at hg
    | dropDecode i =>
      simp only [gstep] at hg
      split at hg
      · rename_i hz
        obtain ⟨p, hp, rfl⟩ := Option.map_eq_some_iff.mp hg
        simp only [pstep] at hp
        split at hp
        · simp only [Option.some.injEq] at hp; subst hp
          refine ⟨by simp only [List.length_eraseIdx, h.len], h.joining, h.held, h.running, h.cancelled, ?_⟩
          rcases h.log with hk | ⟨k, hk⟩
          · exact .inl hk
          · exact .inr ⟨k, mem_eraseIdx_of_ne hk hz (by simp)⟩
        · simp at hp
      · simp at hg
    | finish =>
      exfalso
      simp only [gstep] at hg
      split at hg
      · rename_i hz
        obtain ⟨p, hp, rfl⟩ := Option.map_eq_some_iff.mp hg
        simp only [pstep, pFinish] at hp
        split at hp
        · rename_i hw
          rcases h.log with ⟨k, hk⟩ | ⟨k, hk⟩
          · rw [hz] at hk; simp at hk
          · have hd : g.p.decoding = [] := by
              have hw := hw.2
              unfold PState.waitOver at hw
              rw [if_pos h.cancelled] at hw
              simp at hw
              exact hw.1.1
            have : g.bodies = [] := List.length_eq_zero_iff.mp (by rw [h.len, hd]; rfl)
            rw [this] at hk
            simp at hk
        · simp at hp
      · simp at hg
    | cStep => simp [gstep, pstep, pCStep, h.joining] at hg
    | callRead => simp [gstep, pstep, pCallRead, h.joining] at hg
    | callReset => simp [gstep, pstep, pCallReset, h.joining] at hg
    | cJoin => simp [gstep, pstep, pCJoin, h.joining, h.running] at hg
    | forward | qStart | qStep | dropQueue =>
      simp only [gstep] at hg
      obtain ⟨p, hp, rfl⟩ := Option.map_eq_some_iff.mp hg
      obtain ⟨h1, h2, h3, h4, h5, h6⟩ := quiet_step (by simp) hp
      refine ⟨by rw [h.len, h1], h6.trans h.joining, h.held, h2.trans h.running, ?_, h.log⟩
      simp only [pstep, pForward, pQStart, pQStep] at hp
      repeat' split at hp
      all_goals first
        | (cases hp; exact h.cancelled)
        | (cases hp)

theorem GHang.never {g : GState m ε} (h : GHang g) : NeverReturns rel L P Q dec g := by
  intro as g' hr
  have key : ∀ (as : List GAct) (g : GState m ε), GHang g → grun rel L P Q dec as g = some g' → GHang g' := by
    intro as
    induction as with
    | nil => intro g h hr; simp [grun] at hr; subst hr; exact h
    | cons a as ih =>
      intro g h hr
      simp only [grun] at hr
      cases hs : gstep rel L P Q dec a g with
      | none => rw [hs] at hr; simp at hr
      | some g1 => rw [hs] at hr; exact ih g1 (h.step hs) hr
  rw [(key as g h hr).joining]
  simp

/-- A state from which `reset` returns although the lock is not given away. -/
def Calm (g : GState m ε) : Prop := g.p.consumer = .idle ∨ (g.p.cancelled = true ∧ ¬ WillLog g)

theorem mem_set {β : Type} {l : List β} {x z : β} {i : Nat} (h : x ∈ l.set i z) : x ∈ l ∨ x = z := List.mem_or_eq_of_mem_set h

theorem Calm.step {a : GAct} (ha : a.isUser = false) {g g' : GState m ε} (h : Calm g) (hg : gstep rel L P Q dec a g = some g') :
    Calm g' := by
  rcases h with h | ⟨hc, hw⟩
  · left
    rcases gstep_proj hg with ⟨b, rfl, hb⟩ | ⟨_, hb⟩
    · rcases consumer_step ha hb with ⟨h1, _⟩ | ⟨h1, _⟩ | ⟨h1, _⟩
      · rw [h1]; exact h
      · rw [h] at h1; simp at h1
      · rw [h] at h1; simp at h1
    · rw [hb]; exact h
  · have hs : ∀ k, g.srcBody ≠ some (k + 1) := fun k hk => hw (.inl ⟨k, hk⟩)
    have hbs : ∀ k, some (k + 1) ∉ g.bodies := fun k hk => hw (.inr ⟨k, hk⟩)
    cases a with
    | srcBegin => simp [gstep, hc] at hg
    | srcLog =>
      simp only [gstep] at hg
      cases hg
    | decBegin i => simp [gstep, hc] at hg
    | decLog i =>
      simp only [gstep] at hg
      split at hg
      · rename_i k hk; exact absurd (List.mem_of_getElem? hk) (hbs k)
      · simp at hg
    | switch => simp [GAct.isUser] at ha
    | sys a =>
      cases a with
      | produce =>
        simp only [gstep] at hg
        split at hg
        · obtain ⟨p, hp, rfl⟩ := Option.map_eq_some_iff.mp hg
          have hw' : ¬ WillLog { g with p := p, srcBody := none } := by
            rintro (⟨k, hk⟩ | ⟨k, hk⟩)
            · simp at hk
            · exact hbs k hk
          refine .inr ⟨?_, hw'⟩
          simp only [pstep, pProduce] at hp
          split at hp
          · split at hp <;> cases hp <;> first | exact hc | rfl
          · simp at hp
        · simp at hg
      | send =>
        simp only [gstep] at hg
        obtain ⟨p, hp, rfl⟩ := Option.map_eq_some_iff.mp hg
        obtain ⟨b, h1, h2, rfl⟩ := pSend_some hp
        refine .inr ⟨hc, ?_⟩
        rintro (⟨k, hk⟩ | ⟨k, hk⟩)
        · exact hs k hk
        · rcases List.mem_append.mp hk with hk | hk
          · exact hbs k hk
          · simp at hk
      | decode i =>
        simp only [gstep] at hg
        split at hg
        · obtain ⟨p, hp, rfl⟩ := Option.map_eq_some_iff.mp hg
          refine .inr ⟨?_, ?_⟩
          · simp only [pstep, pDecode] at hp
            split at hp
            · split at hp
              · split at hp <;> cases hp <;> first | exact hc | rfl
              · simp at hp
            · simp at hp
          · rintro (⟨k, hk⟩ | ⟨k, hk⟩)
            · exact hs k hk
            · exact hbs k (List.mem_of_mem_eraseIdx hk)
        · simp at hg
      | dropDecode i =>
        simp only [gstep] at hg
        split at hg
        · obtain ⟨p, hp, rfl⟩ := Option.map_eq_some_iff.mp hg
          simp only [pstep] at hp
          split at hp
          · simp only [Option.some.injEq] at hp; subst hp
            refine .inr ⟨hc, ?_⟩
            rintro (⟨k, hk⟩ | ⟨k, hk⟩)
            · exact hs k hk
            · exact hbs k (List.mem_of_mem_eraseIdx hk)
          · simp at hp
        · simp at hg
      | finish =>
        simp only [gstep] at hg
        split at hg
        · obtain ⟨p, hp, rfl⟩ := Option.map_eq_some_iff.mp hg
          simp only [pstep, pFinish] at hp
          split at hp
          · simp only [Option.some.injEq] at hp; subst hp
            exact .inr ⟨hc, hw⟩
          · simp at hp
        · simp at hg
      | cStep =>
        simp only [gstep] at hg
        obtain ⟨p, hp, rfl⟩ := Option.map_eq_some_iff.mp hg
        refine .inr ⟨?_, hw⟩
        simp only [pstep, pCStep] at hp
        split at hp
        · split at hp
          · split at hp
            · cases hp; exact hc
            · cases hp
              show (pPop _).cancelled = true
              unfold pPop
              split <;> exact hc
          · cases hp; exact hc
        · simp at hp
      | callRead => simp [GAct.isUser, PAct.isCall] at ha
      | callReset => simp [GAct.isUser, PAct.isCall] at ha
      | cJoin =>
        simp only [gstep] at hg
        obtain ⟨p, hp, rfl⟩ := Option.map_eq_some_iff.mp hg
        simp only [pstep, pCJoin] at hp
        split at hp
        · simp only [Option.some.injEq] at hp; subst hp
          exact .inl rfl
        · simp at hp
      | forward | qStart | qStep | dropQueue =>
        simp only [gstep] at hg
        obtain ⟨p, hp, rfl⟩ := Option.map_eq_some_iff.mp hg
        refine .inr ⟨?_, hw⟩
        simp only [pstep, pForward, pQStart, pQStep] at hp
        repeat' split at hp
        all_goals first
          | (cases hp; exact hc)
          | (cases hp)

theorem Calm.run {as : List GAct} (ha : ∀ a ∈ as, a.isUser = false) {g g' : GState m ε} (h : Calm g)
    (hg : grun rel L P Q dec as g = some g') : Calm g' := by
  induction as generalizing g with
  | nil => simp [grun] at hg; subst hg; exact h
  | cons a as ih =>
    simp only [grun] at hg
    cases hs : gstep rel L P Q dec a g with
    | none => rw [hs] at hg; simp at hg
    | some g1 =>
      rw [hs] at hg
      exact ih (fun b hb => ha b (List.mem_cons_of_mem a hb)) (h.step (ha a (List.mem_cons_self ..)) hs) hg

/-- What calling `reset` does. -/
theorem callReset_some {g g1 : GState m ε} (h : gstep rel L P Q dec (.sys .callReset) g = some g1) :
    g.held = true ∧ g.p.consumer = .idle ∧ pstep P Q dec .callReset g.p = some g1.p ∧ g1.srcBody = g.srcBody ∧ g1.bodies = g.bodies ∧
      (g.p.status = .notStarted ∧ g1.p.consumer = .idle ∨
        g.p.status ≠ .notStarted ∧ g1.p.consumer = .joining ∧ g1.held = !rel ∧ g1.p.cancelled = true ∧ g1.p.status = g.p.status ∧
          g1.p.decoding = g.p.decoding) := by
  simp only [gstep] at h
  split at h
  · rename_i hh
    obtain ⟨p, hp, rfl⟩ := Option.map_eq_some_iff.mp h
    have hp' := hp
    simp only [pstep, pCallReset] at hp
    split at hp
    · rename_i hi
      refine ⟨hh, hi, hp', rfl, rfl, ?_⟩
      split at hp
      · rename_i hn
        cases hp
        exact .inl ⟨hn, rfl⟩
      · rename_i hn
        cases hp
        exact .inr ⟨hn, rfl, by simp, rfl, rfl, rfl⟩
    · simp at hp
  · simp at h

/-- How much the running bodies and those to come have left to log. -/
def bodyWork (L : Logs m) : List (Option Nat) → List (Batch α) → Nat
  | none :: os, b :: bs => L.dec b + 1 + bodyWork L os bs
  | some k :: os, _ :: bs => k + bodyWork L os bs
  | _, _ => 0

def GState.logWork (L : Logs m) (g : GState m ε) : Nat :=
  (match g.srcBody with | none => L.src g.p.src + 1 | some k => k) + bodyWork L g.bodies g.p.decoding

theorem bodyWork_begin (L : Logs m) : ∀ (os : List (Option Nat)) (bs : List (Batch α)) (i : Nat) (b : Batch α), os[i]? = some none →
    bs[i]? = some b → bodyWork L (os.set i (some (L.dec b))) bs + 1 = bodyWork L os bs
  | [], _, i, _, h, _ => by simp at h
  | _ :: _, [], i, _, _, h => by simp at h
  | o :: os, c :: bs, 0, b, h, hb => by
    simp at h hb; subst h hb
    simp only [List.set_cons_zero, bodyWork]; omega
  | o :: os, c :: bs, i + 1, b, h, hb => by
    simp at h hb
    have := bodyWork_begin L os bs i b h hb
    cases o <;> simp only [List.set_cons_succ, bodyWork] <;> omega

theorem bodyWork_log (L : Logs m) : ∀ (os : List (Option Nat)) (bs : List (Batch α)) (i k : Nat), os.length = bs.length → os[i]? = some (some (k + 1)) →
    bodyWork L (os.set i (some k)) bs + 1 = bodyWork L os bs
  | [], _, i, _, _, h => by simp at h
  | _ :: _, [], i, _, h, _ => by simp at h
  | o :: os, c :: bs, 0, k, _, h => by
    simp at h; subst h
    simp only [List.set_cons_zero, bodyWork]; omega
  | o :: os, c :: bs, i + 1, k, hl, h => by
    simp at h hl
    have := bodyWork_log L os bs i k hl h
    cases o <;> simp only [List.set_cons_succ, bodyWork] <;> omega

/-- The moves that are not moves of the pipeline are log messages and begins of bodies. -/
theorem logWork_lt {a : GAct} (ha : a.isUser = false) (hn : ∀ b, a ≠ .sys b) {g g' : GState m ε} (h : GInv rel g)
    (hg : gstep rel L P Q dec a g = some g') : g'.logWork L < g.logWork L := by
  cases a with
  | sys b => exact absurd rfl (hn b)
  | switch => simp [GAct.isUser] at ha
  | srcBegin =>
    simp only [gstep] at hg
    split at hg
    · rename_i hc
      cases hg
      simp only [GState.logWork, hc.1]; omega
    · simp at hg
  | srcLog =>
    simp only [gstep] at hg
    split at hg
    · rename_i k hk
      split at hg
      · simp at hg
      · cases hg
        simp only [GState.logWork, hk]; omega
    · simp at hg
  | decBegin i =>
    simp only [gstep] at hg
    split at hg
    · rename_i hc
      split at hg
      · rename_i b hb
        cases hg
        have := bodyWork_begin L _ _ i b hc.2.2 hb
        simp only [GState.logWork]; omega
      · simp at hg
    · simp at hg
  | decLog i =>
    simp only [gstep] at hg
    split at hg
    · rename_i k hk
      split at hg
      · simp at hg
      · cases hg
        have := bodyWork_log L _ _ i k h.len hk
        simp only [GState.logWork]; omega
    · simp at hg

/-- Nothing to log. -/
theorem silent_step (h0 : ∀ s, L.src s = 0) (h1 : ∀ b, L.dec b = 0) {a : GAct} {g g' : GState m ε} (h : ¬ WillLog g)
    (hg : gstep rel L P Q dec a g = some g') : ¬ WillLog g' := by
  have hs : ∀ k, g.srcBody ≠ some (k + 1) := fun k hk => h (.inl ⟨k, hk⟩)
  have hbs : ∀ k, some (k + 1) ∉ g.bodies := fun k hk => h (.inr ⟨k, hk⟩)
  cases a with
  | srcBegin =>
    simp only [gstep] at hg
    split at hg
    · cases hg
      rintro (⟨k, hk⟩ | ⟨k, hk⟩)
      · rw [h0] at hk; simp at hk
      · exact hbs k hk
    · simp at hg
  | srcLog =>
    simp only [gstep] at hg
    cases hg
  | decBegin i =>
    simp only [gstep] at hg
    split at hg
    · split at hg
      · cases hg
        rintro (⟨k, hk⟩ | ⟨k, hk⟩)
        · exact hs k hk
        · rcases mem_set hk with hk | hk
          · exact hbs k hk
          · rw [h1] at hk; simp at hk
      · simp at hg
    · simp at hg
  | decLog i =>
    simp only [gstep] at hg
    split at hg
    · rename_i k hk; exact absurd (List.mem_of_getElem? hk) (hbs k)
    · simp at hg
  | switch => simp only [gstep] at hg; split at hg <;> simp at hg; subst hg; exact h
  | sys a =>
    simp only [gstep] at hg
    cases a <;> simp only at hg <;> (try split at hg) <;> first
      | (simp at hg; done)
      | (obtain ⟨p, hp, rfl⟩ := Option.map_eq_some_iff.mp hg
         rintro (⟨k, hk⟩ | ⟨k, hk⟩)
         · first | exact hs k hk | (simp at hk; done)
         · first
             | exact hbs k hk
             | (simp at hk; done)
             | exact hbs k (List.mem_of_mem_eraseIdx hk)
             | (rcases List.mem_append.mp hk with hk | hk
                · exact hbs k hk
                · simp at hk))

end
end Mlio
