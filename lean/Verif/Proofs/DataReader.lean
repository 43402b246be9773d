import Verif.Spec.DataReader
import Verif.Props.Pipeline

/-! # Invariants of the interface of data readers -/

namespace Mlio
open Spec Machine

section
variable {α ε : Type} {m : Machine (Batch α)} {P Q : Nat} {size : α → Nat} {dec : Batch α → Except Err (Option ε)}

theorem consumed_append (xs ys : List (ReadCall × Res (Option ε))) : consumed (xs ++ ys) = consumed xs + consumed ys := by
  simp [consumed, List.countP_append]

theorem consumed_take_le (xs : List (ReadCall × Res (Option ε))) (i j : Nat) (h : i ≤ j) :
    consumed (xs.take i) ≤ consumed (xs.take j) := by
  have : xs.take i = (xs.take j).take i := by rw [List.take_take, Nat.min_eq_left h]
  rw [this]
  conv => rhs; rw [← List.take_append_drop i (xs.take j), consumed_append]
  omega

/-- The shape of the outcomes of the pipeline. -/
def OutShape (out : List (Res (Option ε))) : Prop :=
  ∃ n o, out = (delivered out).map (fun e => .ok (some e)) ++ List.replicate n o ∧ (o = .ok none ∨ ∃ e, o = .err e)

theorem OutShape.snoc {out : List (Res (Option ε))} {e : ε} (h : OutShape (out ++ [.ok (some e)])) :
    ∀ o ∈ out, ∃ e, o = .ok (some e) := by
  obtain ⟨n, o, h1, h2⟩ := h
  cases n with
  | zero =>
    intro o' ho'
    have : o' ∈ out ++ [.ok (some e)] := List.mem_append_left _ ho'
    rw [h1] at this
    simp only [List.replicate_zero, List.append_nil, List.mem_map] at this
    obtain ⟨x, _, hx⟩ := this
    exact ⟨x, hx.symm⟩
  | succ n =>
    rw [List.replicate_succ', ← List.append_assoc] at h1
    have := (List.append_inj' h1 rfl).2
    simp only [List.cons.injEq, and_true] at this
    subst this
    rcases h2 with h2 | ⟨e, h2⟩ <;> simp at h2

theorem OutShape.same {out : List (Res (Option ε))} (h : OutShape out) {o o' : Res (Option ε)} (ho : o ∈ out) (ho' : o' ∈ out)
    (hn : ∀ e, o ≠ .ok (some e)) (hn' : ∀ e, o' ≠ .ok (some e)) : o' = o := by
  obtain ⟨n, x, h1, h2⟩ := h
  rw [h1] at ho ho'
  have key : ∀ y, y ∈ (delivered out).map (fun e => (.ok (some e) : Res (Option ε))) ++ List.replicate n x →
      (∀ e, y ≠ .ok (some e)) → y = x := by
    intro y hy hn
    rcases List.mem_append.mp hy with hy | hy
    · obtain ⟨e, _, he⟩ := List.mem_map.mp hy
      exact absurd he.symm (hn e)
    · exact (List.mem_replicate.mp hy).2
  rw [key _ ho hn, key _ ho' hn']

/-- What the calls have returned, in terms of what the pipeline has returned. -/
structure SInv (d : DState m ε) : Prop where
  call : d.call.isSome = true ↔ d.p.consumer = .waiting
  wait : d.p.consumer = .waiting → d.peeked = none
  next : ∀ i c e, d.hist[i]? = some (c, .ok (some e)) → (delivered d.p.out)[consumed (d.hist.take i)]? = some e
  other : ∀ (i : Nat) c (o : Res (Option ε)), d.hist[i]? = some (c, o) → (∀ e, o ≠ .ok (some e)) →
    o ∈ d.p.out ∧ consumed (d.hist.take i) = (delivered d.p.out).length
  count : consumed d.hist + d.peeked.toList.length = (delivered d.p.out).length
  peeked : ∀ e, d.peeked = some e → (delivered d.p.out).getLast? = some e
  tail : (match d.hist.getLast? with | some (.peek, .ok (some _)) => 1 | _ => 0) = d.peeked.toList.length

theorem SInv.fresh (p : PState m ε) (h : p.consumer = .idle) (ho : p.out = []) : SInv (DState.afterReset p) where
  call := by simp [DState.afterReset, h]
  wait := by simp [DState.afterReset]
  next := by simp [DState.afterReset]
  other := by simp [DState.afterReset]
  count := by simp [DState.afterReset, consumed, ho, delivered]
  peeked := by simp [DState.afterReset]
  tail := by simp [DState.afterReset]

/-- A move of the pipeline that returns nothing. -/
theorem SInv.same {d d' : DState m ε} (h : SInv d) (h1 : d'.hist = d.hist) (h2 : d'.peeked = d.peeked)
    (h3 : d'.p.out = d.p.out) (h4 : d'.call.isSome = true ↔ d'.p.consumer = .waiting)
    (h5 : d'.p.consumer = .waiting → d.peeked = none) : SInv d' where
  call := h4
  wait := by rw [h2]; exact h5
  next := by rw [h1, h3]; exact h.next
  other := by rw [h1, h3]; exact h.other
  count := by rw [h1, h2, h3]; exact h.count
  peeked := by rw [h2, h3]; exact h.peeked
  tail := by rw [h1, h2]; exact h.tail

theorem hist_snoc {H : List (ReadCall × Res (Option ε))} {x y : ReadCall × Res (Option ε)} {i : Nat}
    (h : (H ++ [x])[i]? = some y) :
    (H[i]? = some y ∧ (H ++ [x]).take i = H.take i) ∨ (y = x ∧ (H ++ [x]).take i = H) := by
  by_cases hi : i < H.length
  · rw [List.getElem?_append_left hi] at h
    exact Or.inl ⟨h, List.take_append_of_le_length (Nat.le_of_lt hi)⟩
  · have hi' : H.length ≤ i := Nat.le_of_not_lt hi
    rw [List.getElem?_append_right hi'] at h
    have : i - H.length = 0 := by
      by_cases h0 : i - H.length = 0
      · exact h0
      · obtain ⟨k, hk⟩ := Nat.exists_eq_succ_of_ne_zero h0
        rw [hk] at h; simp at h
    have hi2 : i = H.length := by omega
    subst hi2
    simp at h
    exact Or.inr ⟨h.symm, by simp⟩

/-- The pipeline returns `o` to the call `c`. -/
theorem SInv.returns {d d' : DState m ε} (h : SInv d) {c : ReadCall} {o : Res (Option ε)} (hpk : d.peeked = none)
    (ho : d'.p.out = d.p.out ++ [o]) (hs : OutShape d'.p.out) (hh : d'.hist = d.hist ++ [(c, o)])
    (hp : d'.peeked = match (generalizing := false) c, o with | .peek, .ok (some e) => some e | _, _ => none)
    (hc : d'.call = none) (hi : d'.p.consumer = .idle) : SInv d' := by
  have hcount : consumed d.hist = (delivered d.p.out).length := by
    have := h.count
    rw [hpk] at this
    simpa using this
  by_cases he : ∃ e, o = .ok (some e)
  · obtain ⟨e, rfl⟩ := he
    have hall := OutShape.snoc (ho ▸ hs)
    refine ⟨by simp [hc, hi], by simp [hi], ?_, ?_, ?_, ?_, ?_⟩
    · intro i c' e' hx
      rw [hh] at hx ⊢
      rw [ho, delivered_snoc]
      rcases hist_snoc hx with ⟨h1, h2⟩ | ⟨h1, h2⟩
      · rw [h2]
        have := h.next i c' e' h1
        rw [List.getElem?_append_left]
        · exact this
        · exact (List.getElem?_eq_some_iff.mp this).1
      · rw [h2, hcount]
        simp only [Prod.mk.injEq, Res.ok.injEq, Option.some.injEq] at h1
        simp [h1.2]
    · intro i c' o' hx hn
      rw [hh] at hx
      rcases hist_snoc hx with ⟨h1, _⟩ | ⟨h1, _⟩
      · obtain ⟨e', he'⟩ := hall o' (h.other i c' o' h1 hn).1
        exact absurd he' (hn e')
      · simp only [Prod.mk.injEq] at h1
        exact absurd h1.2 (hn e)
    · rw [hh, ho, delivered_snoc, consumed_append, hp, hcount]
      cases c <;> simp [consumed]
    · intro e' he'
      rw [hp] at he'
      rw [ho, delivered_snoc]
      cases c <;> simp at he' ⊢
      exact he'
    · rw [hh, hp]
      cases c <;> simp
  · have hn : ∀ e, o ≠ .ok (some e) := fun e h => he ⟨e, h⟩
    have hd : delivered d'.p.out = delivered d.p.out := by
      rw [ho]
      match o, hn with
      | .ok (some e), hn => exact absurd rfl (hn e)
      | .ok none, _ => exact delivered_none _
      | .err e, _ => exact delivered_err _ e
      | .ub w, _ => simp [delivered]
    have hc1 : consumed [(c, o)] = 0 := by
      match o, hn with
      | .ok (some e), hn => exact absurd rfl (hn e)
      | .ok none, _ => cases c <;> rfl
      | .err e, _ => cases c <;> rfl
      | .ub w, _ => cases c <;> rfl
    have hp' : d'.peeked = none := by
      rw [hp]
      match o, hn with
      | .ok (some e), hn => exact absurd rfl (hn e)
      | .ok none, _ => cases c <;> rfl
      | .err e, _ => cases c <;> rfl
      | .ub w, _ => cases c <;> rfl
    refine ⟨by simp [hc, hi], by simp [hi], ?_, ?_, ?_, ?_, ?_⟩
    · intro i c' e' hx
      rw [hh] at hx ⊢
      rw [hd]
      rcases hist_snoc hx with ⟨h1, h2⟩ | ⟨h1, h2⟩
      · rw [h2]; exact h.next i c' e' h1
      · simp only [Prod.mk.injEq] at h1
        exact absurd h1.2.symm (hn e')
    · intro i c' o' hx hn'
      rw [hh] at hx ⊢
      rw [hd, ho]
      rcases hist_snoc hx with ⟨h1, h2⟩ | ⟨h1, h2⟩
      · rw [h2]
        have := h.other i c' o' h1 hn'
        exact ⟨List.mem_append_left _ this.1, this.2⟩
      · rw [h2]
        simp only [Prod.mk.injEq] at h1
        exact ⟨by simp [h1.2], hcount⟩
    · rw [hd, hh, consumed_append, hc1, hp', hcount]; simp
    · rw [hp']; simp
    · rw [hp', hh]
      match o, hn with
      | .ok (some e), hn => exact absurd rfl (hn e)
      | .ok none, _ => cases c <;> simp
      | .err e, _ => cases c <;> simp
      | .ub w, _ => cases c <;> simp

/-- The peeked example is returned. -/
theorem SInv.again {d d' : DState m ε} (h : SInv d) {c : ReadCall} {e : ε} (hpk : d.peeked = some e)
    (ho : d'.p = d.p) (hh : d'.hist = d.hist ++ [(c, .ok (some e))])
    (hp : d'.peeked = match (generalizing := false) c with | .peek => some e | .read => none) (hc : d'.call = d.call) : SInv d' := by
  have hcount := h.count
  rw [hpk] at hcount
  simp only [Option.toList_some, List.length_singleton] at hcount
  have hlast := h.peeked e hpk
  have hget : (delivered d.p.out)[consumed d.hist]? = some e := by
    rw [List.getLast?_eq_getElem?] at hlast
    rw [← hcount] at hlast
    simpa using hlast
  have hw : d.p.consumer ≠ .waiting := fun hw => by
    have := h.wait hw
    rw [hpk] at this
    simp at this
  refine ⟨by rw [hc, ho]; exact h.call, by rw [ho]; exact fun hx => absurd hx hw, ?_, ?_, ?_, ?_, ?_⟩
  · intro i c' e' hx
    rw [hh] at hx ⊢
    rw [ho]
    rcases hist_snoc hx with ⟨h1, h2⟩ | ⟨h1, h2⟩
    · rw [h2]; exact h.next i c' e' h1
    · rw [h2]
      simp only [Prod.mk.injEq, Res.ok.injEq, Option.some.injEq] at h1
      rw [h1.2]; exact hget
  · intro i c' o' hx hn'
    rw [hh] at hx ⊢
    rw [ho]
    rcases hist_snoc hx with ⟨h1, h2⟩ | ⟨h1, h2⟩
    · rw [h2]
      exact h.other i c' o' h1 hn'
    · simp only [Prod.mk.injEq] at h1
      exact absurd h1.2 (hn' e)
  · rw [hh, ho, consumed_append, hp]
    cases c <;> simp [consumed] at hcount ⊢ <;> omega
  · rw [hp, ho]
    cases c <;> simp
    exact hlast
  · rw [hp, hh]
    cases c <;> simp

/-- What `settle` does after a move of the pipeline that is not a call. -/
theorem settle_same (d : DState m ε) (p : PState m ε) (h : p.consumer = .idle → d.call = none) :
    d.settle p = { d with p := p } := by
  unfold DState.settle
  by_cases hi : p.consumer = .idle
  · rw [if_pos hi, h hi]
  · rw [if_neg hi]

theorem settle_return (d : DState m ε) (p : PState m ε) (hi : p.consumer = .idle) (c : ReadCall) (hc : d.call = some c)
    (out : List (Res (Option ε))) (o : Res (Option ε)) (ho : p.out = out ++ [o]) (hp : d.peeked = none) :
    d.settle p =
      { d with
        p := p, call := none, hist := d.hist ++ [(c, o)],
        peeked := match (generalizing := false) c, o with | .peek, .ok (some e) => some e | _, _ => none } := by
  unfold DState.settle
  rw [if_pos hi, hc, ho]
  simp only [List.getLast?_concat]
  cases c with
  | read => simp [hp]
  | peek =>
    match o with
    | .ok (some e) => rfl
    | .ok none => rfl
    | .err e => rfl
    | .ub w => rfl

theorem callRead_cases {s s' : PState m ε} (h : pCallRead s = some s') :
    s.consumer = .idle ∧
    ((s'.consumer = .waiting ∧ s'.out = s.out) ∨ (s'.consumer = .idle ∧ ∃ e, s'.out = s.out ++ [.ok (some e)])) := by
  unfold pCallRead at h
  by_cases hi : s.consumer = .idle
  · rw [if_pos hi] at h
    refine ⟨hi, ?_⟩
    by_cases hr : s.read.isEmpty = true
    · rw [if_pos hr] at h
      by_cases hn : s.status = .notStarted
      · rw [if_pos hn] at h; simp only [Option.some.injEq] at h; subst h; exact Or.inl ⟨rfl, rfl⟩
      · rw [if_neg hn] at h; simp only [Option.some.injEq] at h; subst h; exact Or.inl ⟨rfl, rfl⟩
    · rw [if_neg hr] at h
      simp only [Option.some.injEq] at h; subst h
      right
      unfold pPop
      cases hq : s.read with
      | nil => rw [hq] at hr; simp at hr
      | cons e es => exact ⟨rfl, e, rfl⟩
  · rw [if_neg hi] at h; simp at h

theorem callReset_cases {s s' : PState m ε} (h : pCallReset s = some s') :
    s.consumer = .idle ∧
    ((s'.consumer = .joining ∧ s'.out = s.out) ∨ (s'.consumer = .idle ∧ s'.out = [])) := by
  unfold pCallReset at h
  by_cases hi : s.consumer = .idle
  · rw [if_pos hi] at h
    refine ⟨hi, ?_⟩
    by_cases hn : s.status = .notStarted
    · rw [if_pos hn] at h; simp only [Option.some.injEq] at h; subst h; exact Or.inr ⟨rfl, rfl⟩
    · rw [if_neg hn] at h; simp only [Option.some.injEq] at h; subst h; exact Or.inl ⟨rfl, rfl⟩
  · rw [if_neg hi] at h; simp at h

/-- Only the join ends a reset. -/
theorem join_only {s s' : PState m ε} {a : PAct} (ha : a.isCall = false) (hj : a ≠ .cJoin) (hp : pstep P Q dec a s = some s')
    (h1 : s.consumer = .joining) (h2 : s'.consumer = .idle) : False := by
  have key : s'.consumer = s.consumer := by
    cases a with
    | produce =>
      simp only [pstep, pProduce] at hp
      split at hp
      · split at hp <;> simp at hp <;> subst hp <;> rfl
      · simp at hp
    | send =>
      simp only [pstep, pSend] at hp
      split at hp
      · split at hp <;> simp at hp; subst hp; rfl
      · simp at hp
    | decode i =>
      simp only [pstep, pDecode] at hp
      split at hp
      · split at hp
        · split at hp <;> simp at hp <;> subst hp <;> rfl
        · simp at hp
      · simp at hp
    | forward =>
      simp only [pstep, pForward] at hp
      split at hp
      · split at hp <;> simp at hp; subst hp; rfl
      · simp at hp
    | qStart =>
      simp only [pstep, pQStart] at hp
      split at hp
      · split at hp <;> simp at hp; subst hp; rfl
      · simp at hp
    | qStep =>
      simp only [pstep, pQStep] at hp
      split at hp
      · split at hp
        · simp at hp
        · simp at hp; subst hp; rfl
        · split at hp
          · split at hp <;> simp at hp <;> subst hp <;> rfl
          · simp at hp; subst hp; rfl
      · simp at hp
    | dropDecode i =>
      simp only [pstep] at hp
      split at hp <;> simp at hp
      subst hp; rfl
    | dropQueue =>
      simp only [pstep] at hp
      split at hp <;> simp at hp
      subst hp; rfl
    | finish =>
      simp only [pstep, pFinish] at hp
      split at hp <;> simp at hp
      subst hp; rfl
    | cStep => simp [pstep, pCStep, h1] at hp
    | cJoin => exact absurd rfl hj
    | callRead => simp [PAct.isCall] at ha
    | callReset => simp [PAct.isCall] at ha
  rw [key, h1] at h2
  simp at h2

/-- The kinds of moves of a reader. -/
theorem dstep_cases {d d' : DState m ε} (h : SInv d) {a : DAct} (hd : dstep P Q size dec a d = some d') :
    -- the peeked example is returned
    (∃ c e, d.peeked = some e ∧
      d' = { d with peeked := (match c with | .peek => some e | .read => none), hist := d.hist ++ [(c, .ok (some e))] }) ∨
    -- the pipeline moves
    (∃ pa, pstep P Q dec pa d.p = some d'.p ∧ pa ≠ .cJoin ∧ (pa = .callReset → d'.p.consumer = .joining) ∧
      d'.bytes = d.bytes + bytesAdded size dec d.p pa ∧
      ((d'.hist = d.hist ∧ d'.peeked = d.peeked ∧ d'.p.out = d.p.out ∧ (d'.call.isSome = true ↔ d'.p.consumer = .waiting) ∧
          (d'.p.consumer = .waiting → d.peeked = none)) ∨
        ∃ c o, d.peeked = none ∧ d'.p.out = d.p.out ++ [o] ∧ d'.hist = d.hist ++ [(c, o)] ∧
          (d'.peeked = match c, o with | .peek, .ok (some e) => some e | _, _ => none) ∧
          d'.call = none ∧ d'.p.consumer = .idle)) ∨
    -- a reset ends
    (∃ pa u, pstep P Q dec pa d.p = some d'.p ∧ d' = DState.afterReset ({ src := m.reset u, start := m.reset u } : PState m ε)) := by
  cases a with
  | call c =>
    simp only [dstep, dCall] at hd
    by_cases hi : d.p.consumer = .idle
    · rw [if_pos hi] at hd
      cases hpk : d.peeked with
      | some e =>
        rw [hpk] at hd
        left
        cases c with
        | read =>
          simp only [Option.some.injEq] at hd
          exact ⟨.read, e, rfl, hd.symm⟩
        | peek =>
          simp only [Option.some.injEq] at hd
          refine ⟨.peek, e, rfl, ?_⟩
          rw [← hd]
      | none =>
        rw [hpk] at hd
        simp only [Option.map_eq_some_iff] at hd
        obtain ⟨p, hp, hd⟩ := hd
        right; left
        rcases (callRead_cases hp).2 with ⟨h1, h2⟩ | ⟨h1, e, h2⟩
        · rw [settle_same _ p (fun hx => by rw [h1] at hx; simp at hx)] at hd
          subst hd
          exact ⟨.callRead, hp, by simp, by simp, by simp [bytesAdded], Or.inl ⟨rfl, hpk.symm ▸ rfl, h2, by simp [h1], fun _ => rfl⟩⟩
        · rw [settle_return ({ p := d.p, bytes := d.bytes, call := some c, hist := d.hist } : DState m ε) p h1 c rfl _ _ h2 rfl] at hd
          subst hd
          exact ⟨.callRead, hp, by simp, by simp, by simp [bytesAdded], Or.inr ⟨c, _, rfl, h2, rfl, rfl, rfl, h1⟩⟩
    · rw [if_neg hi] at hd; simp at hd
  | reset =>
    simp only [dstep, Option.map_eq_some_iff] at hd
    obtain ⟨p, hp, hd⟩ := hd
    have hcall : d.call = none := by
      have := h.call
      rw [(callReset_cases hp).1] at this
      cases hc : d.call with
      | none => rfl
      | some c => rw [hc] at this; simp at this
    by_cases hj : p.consumer = .joining
    · rw [if_pos hj] at hd
      subst hd
      right; left
      refine ⟨.callReset, hp, by simp, fun _ => hj, by simp [bytesAdded], Or.inl ⟨rfl, rfl, ?_, by simp [hcall, hj], by simp [hj]⟩⟩
      rcases (callReset_cases hp).2 with ⟨_, h2⟩ | ⟨h1, _⟩
      · exact h2
      · rw [hj] at h1; simp at h1
    · rw [if_neg hj] at hd
      right; right
      have hp0 := hp
      unfold pCallReset at hp
      rw [if_pos (callReset_cases hp).1] at hp
      split at hp
      · simp only [Option.some.injEq] at hp
        refine ⟨.callReset, d.p.src, ?_, ?_⟩
        · rw [← hd]; exact hp0
        · rw [← hd, ← hp]; rfl
      · simp only [Option.some.injEq] at hp
        subst hp
        simp at hj
  | sys a =>
    simp only [dstep] at hd
    by_cases hcall : a.isCall = true
    · rw [if_pos hcall] at hd; simp at hd
    · rw [if_neg hcall] at hd
      have hcall' : a.isCall = false := by simpa using hcall
      simp only [Option.map_eq_some_iff] at hd
      obtain ⟨p, hp, hd⟩ := hd
      by_cases hj : a = .cJoin
      · rw [if_pos hj] at hd
        subst hj
        right; right
        have hp0 := hp
        simp only [pstep, pCJoin] at hp
        split at hp
        · simp only [Option.some.injEq] at hp
          refine ⟨.cJoin, d.p.src, ?_, ?_⟩
          · rw [← hd]; exact hp0
          · rw [← hd, ← hp]; rfl
        · simp at hp
      · rw [if_neg hj] at hd
        right; left
        have hcn : d.p.consumer ≠ .waiting → d.call = none := by
          intro hw
          cases hc : d.call with
          | none => rfl
          | some c => exact absurd (h.call.mp (by rw [hc]; rfl)) hw
        rcases consumer_step hcall' hp with ⟨h1, h2⟩ | ⟨h1, h2, o, h3⟩ | ⟨h1, h2⟩
        · rw [settle_same ({ d with bytes := d.bytes + bytesAdded size dec d.p a } : DState m ε) p
            (fun hx => hcn (by rw [← h1, hx]; simp))] at hd
          subst hd
          exact ⟨a, hp, hj, fun hx => by rw [hx] at hcall'; simp [PAct.isCall] at hcall', rfl, Or.inl ⟨rfl, rfl, h2, by simp only [h1]; exact h.call, fun hw => h.wait (h1 ▸ hw)⟩⟩
        · have := h.call.mpr h1
          obtain ⟨c, hc⟩ := Option.isSome_iff_exists.mp this
          rw [settle_return ({ d with bytes := d.bytes + bytesAdded size dec d.p a } : DState m ε) p h2 c hc _ _ h3
            (h.wait h1)] at hd
          subst hd
          exact ⟨a, hp, hj, fun hx => by rw [hx] at hcall'; simp [PAct.isCall] at hcall', rfl, Or.inr ⟨c, o, h.wait h1, h3, rfl, rfl, rfl, h2⟩⟩
        · have hw : d.call = none := hcn (by rw [h1]; simp)
          exfalso
          have hx : a = .cJoin := by
            have h4 : p.consumer = .idle := by rw [h2]
            exact (join_only hcall' hj hp h1 h4).elim
          exact hj hx

theorem SInv.step {d d' : DState m ε} (h : SInv d) {a : DAct} (hd : dstep P Q size dec a d = some d')
    (hs : OutShape d'.p.out) : SInv d' := by
  rcases dstep_cases h hd with ⟨c, e, h1, h2⟩ | ⟨pa, h1, _, _, _, h2 | ⟨c, o, h2, h3, h4, h5, h6, h7⟩⟩ | ⟨pa, u, h1, h2⟩
  · exact h.again h1 (by rw [h2]) (by rw [h2]) (by rw [h2]) (by rw [h2])
  · obtain ⟨h2, h3, h4, h5, h6⟩ := h2
    exact h.same h2 h3 h4 h5 h6
  · exact h.returns h2 h3 hs h4 h5 h6 h7
  · rw [h2]
    exact SInv.fresh _ rfl rfl

/-! ## Counting bytes -/

/-- The examples of this epoch that are in the hands of the consumer or on the way to them. -/
def PState.queued (s : PState m ε) : List ε := delivered s.out ++ s.read ++ s.fill

/-- The batches `D` have been counted. -/
structure BInv (size : α → Nat) (dec : Batch α → Except Err (Option ε)) (bs : List (Batch α)) (t : Res (Option (Batch α)))
    (pos : Nat) (D : List (Batch α)) (s : PState m ε) (bytes : Nat) : Prop where
  posle : pos ≤ bs.length
  src : (s.active = true ∨ s.status = .notStarted) → m.ReadsTo s.src (bs.drop pos) t
  zero : s.status = .notStarted → D = [] ∧ pos = 0
  nodup : ((D ++ s.cached.toList ++ s.decoding).map (·.index)).Nodup
  lt : ∀ b ∈ D ++ s.cached.toList ++ s.decoding, b.index < pos
  mem : ∀ b ∈ D, b ∈ bs ∧ ∃ e, dec b = .ok (some e)
  sum : bytes = (D.map (Batch.sizeBytes size)).sum
  seqD : ∀ q ∈ s.seq, ∀ e, q.2 = some e → ∃ b ∈ D, b.index = q.1
  headD : s.cancelled = false → ∀ i b e, i < s.head → bs[i]? = some b → dec b = .ok (some e) → b ∈ D
  deliv : ∃ h, s.queued <+: examples dec (bs.take h) ∧ AllOk dec (bs.take h) ∧
    ∀ b ∈ bs.take h, ∀ e, dec b = .ok (some e) → b ∈ D

variable {bs : List (Batch α)} {t : Res (Option (Batch α))} {pos pos' pos'' : Nat} {D D' : List (Batch α)} {s s' : PState m ε}
  {bytes bytes' : Nat}

theorem BInv.init (st : m.σ) (hs : Source m st bs t) :
    BInv size dec bs t 0 [] ({ src := st, start := st } : PState m ε) 0 where
  posle := Nat.zero_le _
  src := fun _ => hs.reads
  zero := fun _ => ⟨rfl, rfl⟩
  nodup := by simp
  lt := by simp
  mem := by simp
  sum := by simp
  seqD := by simp
  headD := by simp
  deliv := ⟨0, by simp [PState.queued, delivered], by simp [AllOk], by simp⟩

theorem deliv_of (h : PInv P Q dec bs t pos s)
    (hd : s.cancelled = false → ∀ i b e, i < s.head → bs[i]? = some b → dec b = .ok (some e) → b ∈ D)
    (hc : s.cancelled = false) :
    ∃ h, s.queued <+: examples dec (bs.take h) ∧ AllOk dec (bs.take h) ∧
      ∀ b ∈ bs.take h, ∀ e, dec b = .ok (some e) → b ∈ D := by
  refine ⟨s.head, ⟨_, h.queue hc⟩, h.allok hc, ?_⟩
  intro b hb e he
  obtain ⟨i, hi, hb⟩ := List.mem_iff_getElem.mp hb
  have hi' : i < s.head := by
    rw [List.length_take] at hi; omega
  refine hd hc i b e hi' ?_ he
  rw [List.getElem?_eq_some_iff]
  rw [List.getElem_take] at hb
  exact ⟨_, hb⟩

/-- A move that decodes nothing and reads nothing. -/
theorem BInv.keep (h : BInv size dec bs t pos D s bytes) (hi : PInv P Q dec bs t pos' s')
    (h1 : s'.active = true → s.active = true ∨ s.status = .notStarted) (h2 : s'.status = .notStarted → s.status = .notStarted)
    (h3 : s'.src = s.src) (h4 : (s'.cached.toList ++ s'.decoding).Sublist (s.cached.toList ++ s.decoding))
    (h5 : ∀ q ∈ s'.seq, q ∈ s.seq) (h6 : s'.cancelled = false → s.cancelled = false)
    (h7 : s'.cancelled = false → ∀ i, i < s'.head → i < s.head ∨ ∃ q ∈ s.seq, q.1 = i ∧ ∃ b, bs[i]? = some b ∧ dec b = .ok q.2)
    (h8 : s'.cancelled = true → s'.queued <+: s.queued) (hx : ∀ (i : Nat) (b : Batch α), bs[i]? = some b → b.index = i) :
    BInv size dec bs t pos D s' bytes := by
  have hsub : (D ++ s'.cached.toList ++ s'.decoding).Sublist (D ++ s.cached.toList ++ s.decoding) := by
    rw [List.append_assoc, List.append_assoc]
    exact List.Sublist.append (List.Sublist.refl _) h4
  have hhead : s'.cancelled = false → ∀ i b e, i < s'.head → bs[i]? = some b → dec b = .ok (some e) → b ∈ D := by
    intro hc i b e hi hb he
    rcases h7 hc i hi with hi | ⟨q, hq, rfl, b', hb', hd'⟩
    · exact h.headD (h6 hc) i b e hi hb he
    · rw [hb] at hb'
      simp only [Option.some.injEq] at hb'
      subst hb'
      rw [he] at hd'
      simp only [Except.ok.injEq] at hd'
      obtain ⟨b'', hb'', hi''⟩ := h.seqD q hq e hd'.symm
      obtain ⟨j, hj⟩ := List.getElem?_of_mem (h.mem b'' hb'').1
      have := hx j b'' hj
      rw [hi''] at this
      rw [← this, hb] at hj
      simp only [Option.some.injEq] at hj
      rw [hj]
      exact hb''
  refine ⟨h.posle, ?_, fun hn => h.zero (h2 hn), (hsub.map _).nodup h.nodup, fun b hb => h.lt b (hsub.subset hb), h.mem, h.sum,
    fun q hq => h.seqD q (h5 q hq), hhead, ?_⟩
  · rintro (ha | hn)
    · rw [h3]; exact h.src (h1 ha)
    · rw [h3]; exact h.src (Or.inr (h2 hn))
  · cases hc : s'.cancelled with
    | false => exact deliv_of hi hhead hc
    | true =>
      obtain ⟨n, h9, h10⟩ := h.deliv
      exact ⟨n, (h8 hc).trans h9, h10⟩

theorem BInv.produce (hs : Source m s.start bs t) (h : BInv size dec bs t pos D s bytes) (hp : pProduce s = some s') :
    ∃ p, BInv size dec bs t p D s' bytes := by
  unfold pProduce at hp
  split at hp
  case isFalse => simp at hp
  rename_i hc
  obtain ⟨hr, ha, hn⟩ := hc
  have hy := h.src (Or.inl ha)
  have hnone : s.cached = none := by simpa using hn
  split at hp
  · rename_i b i hread
    simp only [Option.some.injEq] at hp
    subst hp
    have hne : bs.drop pos ≠ [] := by
      intro h0
      rw [h0] at hy
      obtain ⟨_, this⟩ := hy.read_nil
      rw [hread] at this
      simp only [Prod.mk.injEq] at this
      exact hs.tail_ne b this.1.symm
    have hlt : pos < bs.length := by
      apply Classical.byContradiction
      intro hx
      exact hne (List.drop_eq_nil_of_le (Nat.le_of_not_lt hx))
    rw [List.drop_eq_getElem_cons hlt] at hy
    obtain ⟨s1, e1, y1⟩ := hy.read_cons
    rw [hread] at e1
    simp only [Prod.mk.injEq, Res.ok.injEq, Option.some.injEq] at e1
    obtain ⟨hb, rfl⟩ := e1
    have hidx : b.index = pos := hs.index pos b (by rw [hb]; exact List.getElem?_eq_getElem hlt)
    refine ⟨pos + 1, by omega, fun _ => y1, fun hx => ?_, ?_, ?_, h.mem, h.sum, h.seqD, h.headD, h.deliv⟩
    · rw [show s.status = .notStarted from hx] at hr; simp at hr
    · have h1 := h.nodup
      have h2 := h.lt
      simp only [hnone, Option.toList_none, List.append_nil] at h1 h2
      have hperm : ((D ++ [b] ++ s.decoding).map (·.index)).Perm (((b :: (D ++ s.decoding))).map (·.index)) := by
        apply List.Perm.map
        rw [List.append_assoc]
        exact List.perm_middle
      refine hperm.symm.nodup ?_
      rw [List.map_cons, List.nodup_cons]
      refine ⟨?_, h1⟩
      intro hmem
      obtain ⟨b', hb', hbi⟩ := List.mem_map.mp hmem
      have := h2 b' hb'
      omega
    · intro b' hb'
      have h2 := h.lt
      simp only [hnone, Option.toList_none, List.append_nil] at h2
      simp only [Option.toList_some, List.mem_append, List.mem_singleton] at hb'
      rcases hb' with (hb' | rfl) | hb'
      · have := h2 b' (List.mem_append_left _ hb'); omega
      · omega
      · have := h2 b' (List.mem_append_right _ hb'); omega
  · rename_i i hread
    simp only [Option.some.injEq] at hp
    subst hp
    refine ⟨pos, h.posle, ?_, fun hx => ?_, h.nodup, h.lt, h.mem, h.sum, h.seqD, h.headD, h.deliv⟩
    · rintro (hx | hx)
      · simp at hx
      · rw [show s.status = .notStarted from hx] at hr; simp at hr
    · rw [show s.status = .notStarted from hx] at hr; simp at hr
  · rename_i e i hread
    simp only [Option.some.injEq] at hp
    subst hp
    refine ⟨pos, h.posle, ?_, fun hx => ?_, h.nodup, h.lt, h.mem, h.sum, h.seqD, ?_, h.deliv⟩
    · rintro (hx | hx)
      · simp [PState.throw] at hx
      · rw [show s.status = .notStarted from hx] at hr; simp at hr
    · rw [show s.status = .notStarted from hx] at hr; simp at hr
    · simp [PState.throw]
  · simp at hp

theorem BInv.decodeStep (h : BInv size dec bs t pos D s bytes) (hi0 : PInv P Q dec bs t pos' s) {i : Nat}
    (hp : pDecode dec i s = some s') :
    ∃ E, BInv size dec bs t pos E s' (bytes + bytesAdded size dec s (.decode i)) := by
  unfold pDecode at hp
  split at hp
  case isFalse => simp at hp
  rename_i hr
  simp only [bytesAdded]
  cases hg : s.decoding[i]? with
  | none => rw [hg] at hp; simp at hp
  | some b =>
    rw [hg] at hp
    simp only at hp ⊢
    have hperm := perm_eraseIdx s.decoding i b hg
    have hmem : b ∈ s.decoding := List.mem_of_getElem? hg
    have hbs : b ∈ bs := List.mem_of_getElem? (hi0.decoding b hmem)
    have hsub : (D ++ s.cached.toList ++ s.decoding.eraseIdx i).Sublist (D ++ s.cached.toList ++ s.decoding) :=
      List.Sublist.append (List.Sublist.refl _) (List.eraseIdx_sublist ..)
    cases hd : dec b with
    | error e =>
      rw [hd] at hp
      simp only [Option.some.injEq] at hp
      subst hp
      refine ⟨D, h.posle, h.src, h.zero, (hsub.map _).nodup h.nodup, fun b hb => h.lt b (hsub.subset hb), h.mem, h.sum, h.seqD,
        by simp [PState.throw], h.deliv⟩
    | ok r =>
      rw [hd] at hp
      simp only [Option.some.injEq] at hp
      subst hp
      cases r with
      | none =>
        refine ⟨D, h.posle, h.src, h.zero, (hsub.map _).nodup h.nodup, fun b hb => h.lt b (hsub.subset hb), h.mem, h.sum, ?_,
          h.headD, h.deliv⟩
        intro q hq e he
        rcases List.mem_append.mp hq with hq | hq
        · exact h.seqD q hq e he
        · simp only [List.mem_singleton] at hq
          subst hq
          simp at he
      | some e =>
        have hperm2 : (D ++ s.cached.toList ++ s.decoding).Perm (b :: D ++ s.cached.toList ++ s.decoding.eraseIdx i) := by
          refine (List.Perm.append_left _ hperm).trans ?_
          simp only [List.cons_append]
          exact List.perm_middle
        refine ⟨b :: D, h.posle, h.src, fun hx => ?_, (hperm2.map _).nodup h.nodup, fun b hb => h.lt b (hperm2.mem_iff.mpr hb), ?_, ?_,
          ?_, ?_, ?_⟩
        · rw [show s.status = .notStarted from hx] at hr; simp at hr
        · intro b' hb'
          rcases List.mem_cons.mp hb' with rfl | hb'
          · exact ⟨hbs, e, hd⟩
          · exact h.mem b' hb'
        · simp only [List.map_cons, List.sum_cons]
          rw [h.sum]
          omega
        · intro q hq e' he
          rcases List.mem_append.mp hq with hq | hq
          · obtain ⟨b', h1, h2⟩ := h.seqD q hq e' he
            exact ⟨b', List.mem_cons_of_mem _ h1, h2⟩
          · simp only [List.mem_singleton] at hq
            subst hq
            exact ⟨b, List.mem_cons_self .., rfl⟩
        · exact fun hc i b' e' h1 h2 h3 => List.mem_cons_of_mem _ (h.headD hc i b' e' h1 h2 h3)
        · obtain ⟨n, h1, h2, h3⟩ := h.deliv
          exact ⟨n, h1, h2, fun b' h4 e' h5 => List.mem_cons_of_mem _ (h3 b' h4 e' h5)⟩

/-- A move that does not end a reset keeps the invariant. -/
theorem BInv.step (h : BInv size dec bs t pos D s bytes) (hs : Source m s.start bs t) (hi0 : PInv P Q dec bs t pos' s)
    (hi : PInv P Q dec bs t pos'' s') {a : PAct} (hp : pstep P Q dec a s = some s') (hj : a ≠ .cJoin)
    (hr : a = .callReset → s'.consumer = .joining) :
    ∃ p E, BInv size dec bs t p E s' (bytes + bytesAdded size dec s a) := by
  have refl : (s.cached.toList ++ s.decoding).Sublist (s.cached.toList ++ s.decoding) := List.Sublist.refl _
  cases a with
  | produce =>
    obtain ⟨p, h⟩ := h.produce hs hp
    exact ⟨p, D, h⟩
  | decode i =>
    obtain ⟨E, h⟩ := h.decodeStep hi0 hp
    exact ⟨pos, E, h⟩
  | send =>
    refine ⟨pos, D, ?_⟩
    simp only [pstep, pSend] at hp
    split at hp
    case isFalse => simp at hp
    split at hp
    case h_2 => simp at hp
    rename_i b hb
    simp only [Option.some.injEq] at hp
    subst hp
    have hperm : (D ++ s.cached.toList ++ s.decoding).Perm (D ++ [] ++ (s.decoding ++ [b])) := by
      rw [hb]
      simp only [Option.toList_some, List.append_nil, List.append_assoc]
      exact List.Perm.append_left _ List.perm_append_comm
    exact ⟨h.posle, h.src, h.zero, (hperm.map _).nodup h.nodup, fun b hb => h.lt b (hperm.mem_iff.mpr hb), h.mem, h.sum, h.seqD,
      h.headD, h.deliv⟩
  | forward =>
    refine ⟨pos, D, ?_⟩
    simp only [pstep, pForward] at hp
    split at hp
    case isFalse => simp at hp
    split at hp
    case h_2 => simp at hp
    rename_i q hq
    simp only [Option.some.injEq] at hp
    subst hp
    refine h.keep hi Or.inl id rfl refl (fun q hq => (List.mem_filter.mp hq).1) id ?_ (fun _ => List.prefix_refl _) hs.index
    intro hc i hi
    have hmem := List.mem_of_find?_eq_some hq
    have hq1 : q.1 = s.head := by simpa using List.find?_some hq
    rcases Nat.lt_or_eq_of_le (Nat.le_of_lt_succ hi) with hi | hi
    · exact Or.inl hi
    · right
      obtain ⟨b, hb, hd⟩ := hi0.seq q hmem
      exact ⟨q, hmem, by rw [hq1, hi], b, by rw [hi, ← hq1]; exact hb, hd⟩
  | qStart =>
    refine ⟨pos, D, ?_⟩
    simp only [pstep, pQStart] at hp
    split at hp
    case isFalse => simp at hp
    split at hp
    case h_2 => simp at hp
    simp only [Option.some.injEq] at hp
    subst hp
    exact h.keep hi Or.inl id rfl refl (fun _ => id) id (fun _ _ => Or.inl) (fun _ => List.prefix_refl _) hs.index
  | qStep =>
    refine ⟨pos, D, ?_⟩
    simp only [pstep, pQStep] at hp
    split at hp
    case isFalse => simp at hp
    split at hp
    · simp at hp
    · simp only [Option.some.injEq] at hp
      subst hp
      exact h.keep hi Or.inl id rfl refl (fun _ => id) id (fun _ _ => Or.inl) (fun _ => List.prefix_refl _) hs.index
    · split at hp
      · split at hp
        · simp only [Option.some.injEq] at hp
          subst hp
          exact h.keep hi Or.inl id rfl refl (fun _ => id) id (fun _ _ => Or.inl) (fun _ => List.prefix_refl _) hs.index
        · rename_i hc
          simp only [Option.some.injEq] at hp
          subst hp
          exact h.keep hi Or.inl id rfl refl (fun _ => id) id (fun _ _ => Or.inl) (fun hc' => absurd hc' hc) hs.index
      · simp only [Option.some.injEq] at hp
        subst hp
        exact h.keep hi Or.inl id rfl refl (fun _ => id) id (fun _ _ => Or.inl) (fun _ => List.prefix_refl _) hs.index
  | dropDecode i =>
    refine ⟨pos, D, ?_⟩
    simp only [pstep] at hp
    split at hp
    case isFalse => simp at hp
    simp only [Option.some.injEq] at hp
    subst hp
    exact h.keep hi Or.inl id rfl (List.Sublist.append (List.Sublist.refl _) (List.eraseIdx_sublist ..)) (fun _ => id) id
      (fun _ _ => Or.inl) (fun _ => List.prefix_refl _) hs.index
  | dropQueue =>
    refine ⟨pos, D, ?_⟩
    simp only [pstep] at hp
    split at hp
    case isFalse => simp at hp
    simp only [Option.some.injEq] at hp
    subst hp
    exact h.keep hi Or.inl id rfl refl (fun _ => id) id (fun _ _ => Or.inl) (fun _ => List.prefix_refl _) hs.index
  | finish =>
    refine ⟨pos, D, ?_⟩
    simp only [pstep, pFinish] at hp
    split at hp
    case isFalse => simp at hp
    simp only [Option.some.injEq] at hp
    subst hp
    refine h.keep hi Or.inl ?_ rfl refl (fun _ => id) id (fun _ _ => Or.inl) (fun _ => List.prefix_refl _) hs.index
    intro hn
    simp only at hn
    split at hn <;> simp at hn
  | cStep =>
    refine ⟨pos, D, ?_⟩
    simp only [pstep, pCStep] at hp
    split at hp
    case isFalse => simp at hp
    rename_i hc
    have hread := (hi0.waiting hc.1).1
    split at hp
    · split at hp
      · rename_i e _
        simp only [Option.some.injEq] at hp
        subst hp
        refine h.keep hi Or.inl id rfl refl (fun _ => id) id (fun _ _ => Or.inl) (fun _ => ?_) hs.index
        simp [PState.queued, delivered_err]
      · simp only [Option.some.injEq] at hp
        subst hp
        unfold pPop at hi ⊢
        simp only at hi ⊢
        cases hf : s.fill with
        | nil =>
          rw [hf] at hi
          refine h.keep hi Or.inl id rfl refl (fun _ => id) id (fun _ _ => Or.inl) (fun _ => ?_) hs.index
          simp [PState.queued, delivered_none, hread, hf]
        | cons e es =>
          rw [hf] at hi
          refine h.keep hi Or.inl id rfl refl (fun _ => id) id (fun _ _ => Or.inl) (fun _ => ?_) hs.index
          simp [PState.queued, delivered_snoc, hread, hf]
    · simp only [Option.some.injEq] at hp
      subst hp
      exact h.keep hi Or.inl id rfl refl (fun _ => id) id (fun _ _ => Or.inl) (fun _ => List.prefix_refl _) hs.index
  | callRead =>
    refine ⟨pos, D, ?_⟩
    simp only [pstep, pCallRead] at hp
    split at hp
    case isFalse => simp at hp
    split at hp
    · split at hp
      · rename_i hn
        simp only [Option.some.injEq] at hp
        subst hp
        exact h.keep hi (fun _ => Or.inr hn) (by simp) rfl refl (fun _ => id) id (fun _ _ => Or.inl) (fun _ => List.prefix_refl _)
          hs.index
      · simp only [Option.some.injEq] at hp
        subst hp
        exact h.keep hi Or.inl id rfl refl (fun _ => id) id (fun _ _ => Or.inl) (fun _ => List.prefix_refl _) hs.index
    · simp only [Option.some.injEq] at hp
      subst hp
      unfold pPop at hi ⊢
      cases hf : s.read with
      | nil =>
        rw [hf] at hi
        refine h.keep hi Or.inl id rfl refl (fun _ => id) id (fun _ _ => Or.inl) (fun _ => ?_) hs.index
        simp [PState.queued, delivered_none, hf]
      | cons e es =>
        rw [hf] at hi
        refine h.keep hi Or.inl id rfl refl (fun _ => id) id (fun _ _ => Or.inl) (fun _ => ?_) hs.index
        simp [PState.queued, delivered_snoc, hf]
  | callReset =>
    refine ⟨pos, D, ?_⟩
    simp only [pstep, pCallReset] at hp
    split at hp
    case isFalse => simp at hp
    split at hp
    · simp only [Option.some.injEq] at hp
      subst hp
      have := hr rfl
      simp [PState.afterStop] at this
    · simp only [Option.some.injEq] at hp
      subst hp
      refine h.keep hi Or.inl id rfl refl (fun _ => id) (by simp) (fun _ _ => Or.inl) (fun _ => ?_) hs.index
      simp [PState.queued, List.append_assoc]
  | cJoin => exact absurd rfl hj

/-- The states that some execution of a new reader leads to. -/
def DReachable (P Q : Nat) (size : α → Nat) (dec : Batch α → Except Err (Option ε)) (d : DState m ε) : Prop :=
  ∃ as, drun P Q size dec as (DState.init m) = some d

theorem PInv.order (h : PInv P Q dec bs t pos s) :
    delivered s.out <+: examples dec bs ∧ OutShape s.out ∧
      (.ok none ∈ s.out → delivered s.out = examples dec bs ∧ (∀ b ∈ bs, ∃ r, dec b = .ok r) ∧ t = .ok none) ∧
      (∀ e, .err e ∈ s.out → Fails dec bs t e) := by
  refine ⟨?_, ?_⟩
  · refine List.IsPrefix.trans ?_ h.pref
    rw [List.append_assoc]
    exact List.prefix_append _ _
  · obtain ⟨n, ho⟩ := h.out
    rcases ho with ho | ⟨_, ⟨_, h2, h3, h4, h5⟩ | ⟨_, e, h2, h3⟩⟩
    · refine ⟨⟨0, .ok none, by simpa using ho, Or.inl rfl⟩, ?_, ?_⟩
      · intro hx; rw [ho] at hx; simp at hx
      · intro e hx; rw [ho] at hx; simp at hx
    · refine ⟨⟨n, .ok none, h2, Or.inl rfl⟩, fun _ => ⟨h3, h4, h5⟩, ?_⟩
      intro e hx
      rw [h2] at hx
      simp [List.mem_replicate] at hx
    · refine ⟨⟨n, .err e, h3, Or.inr ⟨e, rfl⟩⟩, ?_, ?_⟩
      · intro hx
        rw [h3] at hx
        simp [List.mem_replicate] at hx
      · intro e' hx
        rw [h3] at hx
        simp [List.mem_replicate] at hx
        rw [hx.2]
        exact h.excFails e h2

/-- The invariants of the pipeline and of the counter, for the dataset `bs`, `t`. -/
def EInv (P Q : Nat) (size : α → Nat) (dec : Batch α → Except Err (Option ε)) (bs : List (Batch α)) (t : Res (Option (Batch α)))
    (d : DState m ε) : Prop :=
  Source m d.p.start bs t ∧ (∃ pos, PInv P Q dec bs t pos d.p) ∧ ∃ pos D, BInv size dec bs t pos D d.p d.bytes

/-- All invariants. -/
def DInv (P Q : Nat) (size : α → Nat) (dec : Batch α → Except Err (Option ε)) (d : DState m ε) : Prop :=
  SInv d ∧ ∃ bs t, EInv P Q size dec bs t d

/-- A move stays in the epoch, or it ends a reset. -/
theorem DInv.step' (hP : 0 < P) (hm : ∀ u, ∃ bs t, Source m (m.reset u) bs t) {d d' : DState m ε} (h : SInv d)
    (he : EInv P Q size dec bs t d) {a : DAct} (hd : dstep P Q size dec a d = some d') :
    SInv d' ∧ (EInv P Q size dec bs t d' ∨
      ∃ u bs t, d' = DState.afterReset ({ src := m.reset u, start := m.reset u } : PState m ε) ∧ EInv P Q size dec bs t d') := by
  obtain ⟨hs, ⟨pos, hp⟩, pos', D, hb⟩ := he
  have key : EInv P Q size dec bs t d' ∨
      ∃ u bs t, d' = DState.afterReset ({ src := m.reset u, start := m.reset u } : PState m ε) ∧ EInv P Q size dec bs t d' := by
    rcases dstep_cases h hd with ⟨c, e, h1, h2⟩ | ⟨pa, h1, h2, h3, h4, _⟩ | ⟨pa, u, h1, h2⟩
    · left
      rw [h2]
      exact ⟨hs, ⟨pos, hp⟩, pos', D, hb⟩
    · left
      have hst : d'.p.start = d.p.start := by
        rcases start_eq h1 with h | ⟨h | h, _⟩
        · exact h
        · subst h
          have := h3 rfl
          simp only [pstep, pCallReset] at h1
          split at h1
          · split at h1 <;> simp only [Option.some.injEq] at h1
            · rw [← h1] at this; simp [PState.afterStop] at this
            · rw [← h1]
          · simp at h1
        · exact absurd h h2
      obtain ⟨bs', t', p1, hs1, hi1⟩ := hp.step hP hm hs h1
      obtain ⟨rfl, rfl⟩ := reads_unique hs.tail_ne hs1.tail_ne hs.reads (hst ▸ hs1.reads)
      obtain ⟨p2, E, hb'⟩ := hb.step hs hp hi1 h1 h2 h3
      refine ⟨hs1, ⟨p1, hi1⟩, p2, E, ?_⟩
      rw [h4]
      exact hb'
    · right
      obtain ⟨bs', t', hs'⟩ := hm u
      refine ⟨u, bs', t', h2, ?_⟩
      rw [h2]
      exact ⟨hs', ⟨0, PInv.init _ hs'⟩, 0, [], BInv.init _ hs'⟩
  refine ⟨h.step hd ?_, key⟩
  rcases key with ⟨_, ⟨_, hp⟩, _⟩ | ⟨_, _, _, _, _, ⟨_, hp⟩, _⟩
  · exact hp.order.2.1
  · exact hp.order.2.1

theorem DInv.step (hP : 0 < P) (hm : Sources m) {d d' : DState m ε} (h : DInv P Q size dec d) {a : DAct}
    (hd : dstep P Q size dec a d = some d') : DInv P Q size dec d' := by
  obtain ⟨hsi, bs, t, he⟩ := h
  obtain ⟨h1, h2 | ⟨_, bs', t', _, h2⟩⟩ := DInv.step' hP hm.2 hsi he hd
  · exact ⟨h1, bs, t, h2⟩
  · exact ⟨h1, bs', t', h2⟩

theorem dinv (hP : 0 < P) (hm : Sources m) {d : DState m ε} (hr : DReachable P Q size dec d) : DInv P Q size dec d := by
  obtain ⟨as, hr⟩ := hr
  have key : ∀ (as : List DAct) (d0 : DState m ε), DInv P Q size dec d0 → drun P Q size dec as d0 = some d →
      DInv P Q size dec d := by
    intro as
    induction as with
    | nil => intro d0 h0 h; simp [drun] at h; subst h; exact h0
    | cons a as ih =>
      intro d0 h0 h
      simp only [drun] at h
      cases hs : dstep P Q size dec a d0 with
      | none => rw [hs] at h; simp at h
      | some d1 =>
        rw [hs] at h
        exact ih d1 (h0.step hP hm hs) h
  refine key as _ ⟨SInv.fresh _ rfl rfl, ?_⟩ hr
  obtain ⟨bs, t, h⟩ := hm.1
  exact ⟨bs, t, h, ⟨0, PInv.init _ h⟩, 0, [], BInv.init _ h⟩

/-! ## From the invariants to the specification -/

theorem session_of {d : DState m ε} (h : SInv d) (hp : PInv P Q dec bs t pos d.p) :
    Session (examples dec bs) (Fails dec bs t) d.hist ∧ (delivered d.p.out).length = shown d.hist := by
  obtain ⟨h2, h3, h4, h5⟩ := hp.order
  have hnoub : ∀ w, (.ub w : Res (Option ε)) ∉ d.p.out := by
    intro w hw
    obtain ⟨n, o, h6, h7⟩ := h3
    rw [h6] at hw
    simp only [List.mem_append, List.mem_map, List.mem_replicate] at hw
    rcases hw with ⟨_, _, hw⟩ | ⟨_, hw⟩
    · simp at hw
    · rcases h7 with h7 | ⟨e, h7⟩ <;> rw [h7] at hw <;> simp at hw
  refine ⟨⟨?_, ?_, ?_, ?_, ?_⟩, ?_⟩
  · intro i c e hx
    have := h.next i c e hx
    obtain ⟨r, hr⟩ := h2
    rw [← hr, List.getElem?_append_left]
    · exact this
    · exact (List.getElem?_eq_some_iff.mp this).1
  · intro i c hx
    obtain ⟨h6, h7⟩ := h.other i c _ hx (by simp)
    obtain ⟨h8, h9, h10⟩ := h4 h6
    refine ⟨by rw [h7, h8], ?_⟩
    rintro e (he | ⟨b, hb, he⟩)
    · rw [h10] at he; simp at he
    · obtain ⟨r, hr⟩ := h9 b hb
      rw [he] at hr; simp at hr
  · intro i c e hx
    exact h5 e (h.other i c _ hx (by simp)).1
  · intro i c w hx
    exact hnoub w (h.other i c _ hx (by simp)).1
  · intro i j c o c' o' hx hn hij hy
    obtain ⟨h6, h7⟩ := h.other i c o hx hn
    have hn' : ∀ e, o' ≠ .ok (some e) := by
      rintro e rfl
      have := h.next j c' e hy
      have hlt := (List.getElem?_eq_some_iff.mp this).1
      have := consumed_take_le d.hist i j hij
      omega
    exact OutShape.same h3 h6 (h.other j c' o' hy hn').1 hn hn'
  · have := h.tail
    have := h.count
    unfold shown
    split <;> simp_all

theorem sizeBytes_sum (bs : List (Batch α)) : (bs.map (Batch.sizeBytes size)).sum = bytesOf size bs := by
  induction bs with
  | nil => rfl
  | cons b bs ih =>
    simp only [bytesOf, List.flatMap_cons, List.map_append, List.sum_append_nat] at ih ⊢
    simp [ih, Batch.sizeBytes]

open Classical in
theorem fruitful_append {β : Type} (dec : β → Except Err (Option ε)) (xs ys : List β) :
    fruitful dec (xs ++ ys) = fruitful dec xs ++ fruitful dec ys := by
  simp [fruitful]

open Classical in
theorem mem_fruitful {β : Type} {dec : β → Except Err (Option ε)} {xs : List β} {b : β} :
    b ∈ fruitful dec xs ↔ b ∈ xs ∧ ∃ e, dec b = .ok (some e) := by
  simp [fruitful]

theorem fruitful_length {β : Type} (dec : β → Except Err (Option ε)) (xs : List β) (h : AllOk dec xs) :
    (fruitful dec xs).length = (examples dec xs).length := by
  induction xs with
  | nil => rfl
  | cons b bs ih =>
    have ih := ih (fun b hb => h b (List.mem_cons_of_mem _ hb))
    obtain ⟨r, hr⟩ := h b (List.mem_cons_self ..)
    cases r <;> simp [examples, fruitful, hr] at ih ⊢ <;> exact ih

open Classical in
theorem BInv.counted (h : BInv size dec bs t pos D s bytes) (hx : ∀ (i : Nat) (b : Batch α), bs[i]? = some b → b.index = i)
    (k : Nat) (hk : k = (delivered s.out).length) :
    ∃ rest, rest.Sublist ((fruitful dec bs).drop k) ∧
      bytes = (((fruitful dec bs).take k).map (Batch.sizeBytes size)).sum + (rest.map (Batch.sizeBytes size)).sum ∧
      (delivered s.out = examples dec bs → AllOk dec bs → rest = []) := by
  have hnd : D.Nodup := by
    have := h.nodup
    rw [List.append_assoc, List.map_append] at this
    exact (List.pairwise_map.mp (List.nodup_append.mp this).1).imp fun hne heq => hne (by rw [heq])
  have hbn : (fruitful dec bs).Nodup := by
    have : bs.Nodup := by
      unfold List.Nodup
      rw [List.pairwise_iff_getElem]
      intro i j hi hj hij heq
      have h1 := hx i _ (List.getElem?_eq_getElem hi)
      have h2 := hx j _ (List.getElem?_eq_getElem hj)
      rw [heq] at h1
      omega
    exact this.sublist List.filter_sublist
  let ds := (fruitful dec bs).filter fun b => decide (b ∈ D)
  have hperm : D.Perm ds := by
    refine (List.perm_ext_iff_of_nodup hnd (hbn.sublist List.filter_sublist)).mpr ?_
    intro b
    simp only [ds, List.mem_filter, decide_eq_true_eq, mem_fruitful]
    exact ⟨fun hb => ⟨h.mem b hb, hb⟩, fun hb => hb.2⟩
  obtain ⟨n, h1, h2, h3⟩ := h.deliv
  have hfirst : (fruitful dec (bs.take n)).filter (fun b => decide (b ∈ D)) = fruitful dec (bs.take n) := by
    rw [List.filter_eq_self]
    intro b hb
    obtain ⟨hb, e, he⟩ := mem_fruitful.mp hb
    exact decide_eq_true (h3 b hb e he)
  have hsplit : fruitful dec bs = fruitful dec (bs.take n) ++ fruitful dec (bs.drop n) := by
    rw [← fruitful_append, List.take_append_drop]
  have hds : ds = fruitful dec (bs.take n) ++ (fruitful dec (bs.drop n)).filter (fun b => decide (b ∈ D)) := by
    simp only [ds]
    rw [hsplit, List.filter_append, hfirst]
  have hle : k ≤ (fruitful dec (bs.take n)).length := by
    rw [fruitful_length dec _ h2]
    have := h1.length_le
    unfold PState.queued at this
    simp only [List.length_append] at this
    omega
  refine ⟨(fruitful dec (bs.take n)).drop k ++ (fruitful dec (bs.drop n)).filter (fun b => decide (b ∈ D)), ?_, ?_, ?_⟩
  · rw [hsplit, List.drop_append_of_le_length hle]
    exact List.Sublist.append (List.Sublist.refl _) List.filter_sublist
  · rw [h.sum, (hperm.map _).sum_nat, hds, hsplit, List.take_append_of_le_length hle, ← List.sum_append_nat, ← List.map_append,
      ← List.append_assoc, List.take_append_drop]
  · intro hall hok
    have h4 := h1.length_le
    unfold PState.queued at h4
    rw [hall] at h4
    simp only [List.length_append] at h4
    have h5 : (examples dec bs).length = (examples dec (bs.take n)).length + (examples dec (bs.drop n)).length := by
      rw [← List.length_append, ← examples_append dec _ _ h2, List.take_append_drop]
    have h6 : (fruitful dec (bs.drop n)).length = 0 := by
      rw [fruitful_length dec _ (fun b hb => hok b (List.mem_of_mem_drop hb))]
      omega
    have h7 : (fruitful dec (bs.take n)).length ≤ k := by
      rw [fruitful_length dec _ h2, hk, hall]
      omega
    rw [List.eq_nil_of_length_eq_zero h6, List.drop_eq_nil_of_le h7]
    rfl

/-- What `num_bytes_read` returns. -/
theorem bytes_of {d : DState m ε} (h : SInv d) (he : EInv P Q size dec bs t d) :
    (∃ ahead : List (Batch α), ahead.Sublist ((fruitful dec bs).drop (shown d.hist)) ∧
        d.bytes = bytesOf size ((fruitful dec bs).take (shown d.hist)) + bytesOf size ahead) ∧
      (∀ c, (c, .ok none) ∈ d.hist → d.bytes = bytesOf size (fruitful dec bs)) := by
  simp only [← sizeBytes_sum]
  obtain ⟨hs, ⟨pos, hp⟩, pos', D, hb⟩ := he
  obtain ⟨h2, h3⟩ := session_of h hp
  obtain ⟨rest, h4, h5, h6⟩ := hb.counted hs.index _ h3.symm
  refine ⟨⟨rest, h4, h5⟩, ?_⟩
  intro c hc
  obtain ⟨i, hi⟩ := List.getElem?_of_mem hc
  obtain ⟨h7, h8⟩ := h.other i c _ hi (by simp)
  obtain ⟨_, _, h9, _⟩ := hp.order
  obtain ⟨h10, h11, _⟩ := h9 h7
  have hrest := h6 h10 h11
  rw [hrest] at h5
  rw [h5, List.take_of_length_le]
  · rfl
  · rw [← h3, h10, fruitful_length dec _ h11]
    exact Nat.le_refl _

/-- What a peek returns is what the next call returns. -/
theorem peek_of {d : DState m ε} (h : SInv d) (hp : PInv P Q dec bs t pos d.p) (i : Nat) (c : ReadCall)
    (o o' : Res (Option ε)) (h1 : d.hist[i]? = some (.peek, o)) (h2 : d.hist[i + 1]? = some (c, o')) : o' = o := by
  obtain ⟨hs, _⟩ := session_of h hp
  by_cases he : ∃ e, o = .ok (some e)
  · obtain ⟨e, rfl⟩ := he
    have hc : consumed (d.hist.take (i + 1)) = consumed (d.hist.take i) := by
      rw [List.take_add_one, h1, consumed_append]
      simp [consumed]
    have h3 := hs.next i _ e h1
    by_cases he' : ∃ e', o' = .ok (some e')
    · obtain ⟨e', rfl⟩ := he'
      have h4 := hs.next (i + 1) c e' h2
      rw [hc, h3] at h4
      simp only [Option.some.injEq] at h4
      rw [h4]
    · exfalso
      have h4 := (h.other (i + 1) c o' h2 (fun e' h => he' ⟨e', h⟩)).2
      rw [hc] at h4
      have h5 := h.next i _ e h1
      rw [h4] at h5
      simp at h5
  · exact hs.sticky i (i + 1) _ o c o' h1 (fun e h => he ⟨e, h⟩) (Nat.le_succ i) h2

end

end Mlio
