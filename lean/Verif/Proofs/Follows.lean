import Verif.Proofs.EndToEnd

/-!
# Streams that fail

A stream that fails at some point is compared with one that does not: until then, both do the same.
-/

namespace Mlio
open Spec

/-- The stream `m` does the same as the stream `m'`, which does not come to an end meanwhile, until it fails with the error `e`,
and then it does so again and again, if no read asks for less than the first one that failed. -/
structure Follows (B : Nat) (e : Err) (m m' : InStream) (F : Nat → m.σ → Prop) (R : m.σ → m'.σ → Prop) : Prop where
  step : ∀ s s' n, R s s' → 0 < n → n ≤ B →
    (∃ s1, m.read s n = (.err e, s1) ∧ F n s1) ∨
    (∃ x s1 s1', m.read s n = (.ok x, s1) ∧ m'.read s' n = (.ok x, s1') ∧ x ≠ [] ∧ x.length ≤ n ∧ R s1 s1')
  stuck : ∀ s k n, F k s → k ≤ n → 0 < n → n ≤ B → ∃ s1, m.read s n = (.err e, s1) ∧ F k s1
  weaken : ∀ s k n, F k s → k ≤ n → F n s

section
variable {B : Nat} {e : Err} {m m' : InStream} {F : Nat → m.σ → Prop} {R : m.σ → m'.σ → Prop}

theorem gFill_follows (h : Follows B e m m' F R) (fuel : Nat) : ∀ (s : m.σ) (s' : m'.σ) (r : Nat), r ≤ fuel → r ≤ B → R s s' →
    (∃ s1, gFill m fuel s r = (.err e, s1) ∧ F r s1 ∧ 0 < r) ∨
    (∃ got s1 s1', gFill m fuel s r = (.ok (got, false), s1) ∧ gFill m' fuel s' r = (.ok (got, false), s1') ∧ got.length = r ∧
      R s1 s1') := by
  induction fuel with
  | zero =>
    intro s s' r hr _ hR
    have : r = 0 := by omega
    subst this
    exact Or.inr ⟨[], s, s', by simp [gFill], by simp [gFill], rfl, hR⟩
  | succ fuel ih =>
    intro s s' r hr hB hR
    by_cases h0 : r = 0
    · subst h0
      exact Or.inr ⟨[], s, s', by simp [gFill], by simp [gFill], rfl, hR⟩
    · rcases h.step s s' r hR (by omega) hB with ⟨s1, h1, h2⟩ | ⟨x, s1, s1', h1, h2, h3, h4, h5⟩
      · exact Or.inl ⟨s1, by simp [gFill, h0, h1], h2, by omega⟩
      · have hx : 0 < x.length := List.length_pos_iff.2 h3
        rcases ih s1 s1' (r - x.length) (by omega) (by omega) h5 with ⟨s2, g1, g2, g3⟩ | ⟨got, s2, s2', g1, g2, g3, g4⟩
        · left
          refine ⟨s2, ?_, h.weaken _ _ _ g2 (by omega), by omega⟩
          simp only [gFill, if_neg h0, h1, if_neg (show ¬ x.length = 0 by omega), g1]
        · right
          refine ⟨x ++ got, s2, s2', ?_, ?_, by simp only [List.length_append]; omega, g4⟩
          · simp only [gFill, if_neg h0, h1, if_neg (show ¬ x.length = 0 by omega), g1]
          · simp only [gFill, if_neg h0, h2, if_neg (show ¬ x.length = 0 by omega), g2]

theorem gFill_stuck (h : Follows B e m m' F R) (fuel : Nat) (s : m.σ) (r : Nat) (hr : r ≤ fuel) (h0 : 0 < r) (hB : r ≤ B)
    (hF : F r s) : ∃ s1, gFill m fuel s r = (.err e, s1) ∧ F r s1 := by
  obtain ⟨s1, h1, h2⟩ := h.stuck s r r hF (Nat.le_refl _) h0 hB
  cases fuel with
  | zero => omega
  | succ fuel => exact ⟨s1, by simp [gFill, show ¬ r = 0 by omega, h1], h2⟩

/-! ## Record readers -/

/-- The same reader over another stream. -/
def GReader.over (g : GReader m) (s' : m'.σ) : GReader m' := ⟨s', g.next, g.held, g.eof, g.chunk⟩

theorem readChunk_follows (h : Follows B e m m' F R) (g : GReader m) (s' : m'.σ) (hR : R g.stream s') (he : g.eof = false)
    (l : Bytes) (hn : g.nextSize l ≤ B) (h0 : 0 < g.nextSize l) :
    (∃ s1, g.readChunk l = (.err e, { g with stream := s1 }) ∧ F (g.nextSize l - l.length) s1 ∧ l.length < g.nextSize l) ∨
    (∃ c g1 s1', g.readChunk l = (.ok c, g1) ∧ (g.over s').readChunk l = (.ok c, g1.over s1') ∧ c ≠ [] ∧ R g1.stream s1' ∧
      g1.eof = false ∧ g1.next = g.nextSize l) ∨
    (∃ w, g.readChunk l = (.ub w, g) ∧ (g.over s').readChunk l = (.ub w, g.over s')) := by
  have hns : (g.over s').nextSize l = g.nextSize l := rfl
  unfold GReader.readChunk
  rw [hns, show (g.over s').eof = g.eof from rfl, he]
  simp only [Bool.false_eq_true, if_false]
  by_cases hl : l.length > g.nextSize l
  · rw [if_pos hl, if_pos hl]
    exact Or.inr (Or.inr ⟨_, rfl, rfl⟩)
  · rw [if_neg hl, if_neg hl]
    rcases gFill_follows h (g.nextSize l - l.length) g.stream s' (g.nextSize l - l.length) (Nat.le_refl _) (by omega) hR with
      ⟨s1, h1, h2, h3⟩ | ⟨got, s1, s1', h1, h2, h3, h4⟩
    · left
      rw [h1]
      exact ⟨s1, rfl, h2, by omega⟩
    · right; left
      have h2' : gFill m' (g.nextSize l - l.length) (g.over s').stream (g.nextSize l - l.length) = (.ok (got, false), s1') := h2
      rw [h1, h2']
      refine ⟨l ++ got, _, s1', rfl, rfl, ?_, h4, rfl, rfl⟩
      intro hx
      obtain ⟨rfl, rfl⟩ := List.append_eq_nil_iff.1 hx
      simp only [List.length_nil] at h3
      omega

/-- A reader whose stream has failed: it needs more bytes, and will not get them. -/
structure GReader.Failed {ρ : Type} (dec : Bytes → Bool → Dec ρ) (B : Nat) (F : Nat → m.σ → Prop) (g : GReader m) : Prop where
  eof : g.eof = false
  wants : ∃ l hint, dec g.chunk true = .more l hint ∧ growHint hint g.next hint = g.next ∧ l.length < g.nextSize l ∧
    g.nextSize l ≤ B ∧ F (g.nextSize l - l.length) g.stream

theorem growHint_same (fuel next value : Nat) (h : value ≤ next) : growHint fuel next value = next := by
  cases fuel with
  | zero => rfl
  | succ fuel => simp [growHint, show ¬ value > next by omega]

theorem failed_read (h : Follows B e m m' F R) {ρ : Type} (dec : Bytes → Bool → Dec ρ) (fuel : Nat) (g : GReader m)
    (hg : g.Failed dec B F) : ∃ g', g.read dec (fuel + 1) = (.err e, g') ∧ g'.Failed dec B F := by
  obtain ⟨he, l, hint, h1, h2, h3, h4, hF⟩ := hg
  obtain ⟨s1, g1, g2⟩ := gFill_stuck h (g.nextSize l - l.length) g.stream (g.nextSize l - l.length) (Nat.le_refl _) (by omega)
    (by omega) hF
  have hrc : g.readChunk l = (.err e, { g with stream := s1 }) := by
    unfold GReader.readChunk
    rw [if_neg (by simp [he]), if_neg (by omega), g1]
  have hd : dec g.chunk (!g.eof) = .more l hint := by rw [he]; exact h1
  refine ⟨{ g with stream := s1 }, ?_, he, l, hint, h1, h2, h3, h4, g2⟩
  unfold GReader.read
  rw [hd]
  simp only
  rw [show ({ g with next := growHint hint g.next hint } : GReader m) = g by rw [h2], hrc]

theorem failed_readN (h : Follows B e m m' F R) {ρ : Type} (dec : Bytes → Bool → Dec ρ) (fuel n : Nat) : ∀ (g : GReader m),
    g.Failed dec B F → g.readN dec (fuel + 1) n = List.replicate n (.err e) := by
  induction n with
  | zero => intro g _; rfl
  | succ n ih =>
    intro g hg
    obtain ⟨g', h1, h2⟩ := failed_read h dec fuel g hg
    unfold GReader.readN
    rw [h1, ih g' h2]
    rfl

/-- One call of the record reader. -/
theorem read_follows (h : Follows B e m m' F R) {ρ : Type} {dec : Bytes → Bool → Dec ρ} {H D : Nat} (ht : Tame dec H)
    (hH : 2 * H ≤ B) (hD : 2 * D ≤ B) (fuel : Nat) : ∀ (g : GReader m) (s' : m'.σ) (data : Bytes), R g.stream s' →
    g.eof = false → 0 < g.next → WithinB B D (g.over s') data →
    (∃ g1, g.read dec fuel = (.err e, g1) ∧ g1.Failed dec B F) ∨
    (∃ o g1 s1' data', g.read dec fuel = (o, g1) ∧ (g.over s').read dec fuel = (o, g1.over s1') ∧ o ≠ .ok none ∧
      R g1.stream s1' ∧ g1.eof = false ∧ 0 < g1.next ∧ WithinB B D (g1.over s1') data') := by
  induction fuel with
  | zero =>
    intro g s' data hR he h0 hw
    exact Or.inr ⟨_, g, s', data, rfl, rfl, by simp, hR, he, h0, hw⟩
  | succ fuel ih =>
    intro g s' data hR he h0 hw
    obtain ⟨w1, w2, w3⟩ := hw
    have hover : (g.over s' : GReader m').eof = false := he
    unfold GReader.read
    have hd1 : ∀ b, (dec g.chunk (!g.eof) = b) = (dec g.chunk (!false) = b) := fun b => by rw [he]
    have hd2 : ∀ b, (dec (g.over s' : GReader m').chunk (!(g.over s' : GReader m').eof) = b) = (dec g.chunk (!false) = b) :=
      fun b => by rw [hover]; rfl
    have htame := ht g.chunk (!false)
    have w2' : g.chunk.length + data.length ≤ D := w2
    cases hc : dec g.chunk (!false) with
    | got r rest =>
      rw [hc] at htame
      rw [(hd1 _).mpr hc, (hd2 _).mpr hc]
      exact Or.inr ⟨_, { g with chunk := rest }, s', data, rfl, rfl, by simp, hR, he, h0, w1,
        by simp only [GReader.over]; simp only at htame; omega, w3⟩
    | fail e' rest =>
      rw [hc] at htame
      rw [(hd1 _).mpr hc, (hd2 _).mpr hc]
      exact Or.inr ⟨_, { g with chunk := rest }, s', data, rfl, rfl, by simp, hR, he, h0, w1,
        by simp only [GReader.over]; simp only at htame; omega, w3⟩
    | ub w =>
      rw [(hd1 _).mpr hc, (hd2 _).mpr hc]
      exact Or.inr ⟨_, g, s', data, rfl, rfl, by simp, hR, he, h0, w1, w2, w3⟩
    | more l hint =>
      rw [hc] at htame
      rw [(hd1 _).mpr hc, (hd2 _).mpr hc]
      simp only at htame ⊢
      have w3' : g.next ≤ B := w3
      have hg : growHint hint g.next hint ≤ B := by
        have := growHint_le hint g.next hint
        omega
      have hg0 : 0 < growHint hint g.next hint := Nat.lt_of_lt_of_le h0 (growHint_ge _ _ _)
      have hidem : growHint hint (growHint hint g.next hint) hint = growHint hint g.next hint :=
        growHint_same _ _ _ (growHint_reaches _ _ _ h0 (by omega))
      have hns : ∀ g2 : GReader m, g2.next ≤ B → 0 < g2.next → l.length ≤ D → g2.nextSize l ≤ B ∧ 0 < g2.nextSize l := by
        intro g2 a b c
        unfold GReader.nextSize
        split
        · split <;> omega
        · omega
      obtain ⟨n1, n2⟩ := hns { g with next := growHint hint g.next hint } hg hg0 (by omega)
      have hsup : Supplies (m'.capped B) s' data := w1
      obtain ⟨o, g', c1, c2, c3, c4, data', c5, c6⟩ := readChunk_capped hD
        (({ g with next := growHint hint g.next hint } : GReader m).over s' : GReader m') data l hsup (by omega) hg
      rw [show (⟨(g.over s' : GReader m').stream, growHint hint (g.over s' : GReader m').next hint, (g.over s' : GReader m').held,
        (g.over s' : GReader m').eof, (g.over s' : GReader m').chunk⟩ : GReader m') =
          ({ g with next := growHint hint g.next hint } : GReader m).over s' from rfl]
      rcases readChunk_follows h { g with next := growHint hint g.next hint } s' hR he l n1 n2 with
        ⟨s1, r1, r2, r3⟩ | ⟨c, g1, s1', r1, r2, r3, r4, r5, r6⟩ | ⟨w, r1, r2⟩
      · left
        rw [r1]
        exact ⟨_, rfl, he, l, hint, hc, hidem, r3, n1, r2⟩
      · rw [r2] at c1
        simp only [Prod.mk.injEq] at c1
        obtain ⟨rfl, rfl⟩ := c1
        rw [r1, r2]
        simp only [show (c.isEmpty = true) = False by simp [r3], if_false]
        rcases c6 with ⟨c', hc', hcl⟩ | ⟨w, hc', _⟩
        · cases hc'
          rcases ih { g1 with chunk := c } s1' data' r4 r5 (by rw [r6]; exact n2)
            ⟨c5, hcl, c4⟩ with ⟨g2, k1, k2⟩ | ⟨o, g2, s2', data2, k1, k2, k3, k4⟩
          · exact Or.inl ⟨g2, k1, k2⟩
          · exact Or.inr ⟨o, g2, s2', data2, k1, k2, k3, k4⟩
        · cases hc'
      · right
        rw [r1, r2]
        exact ⟨_, _, s', data, rfl, rfl, by simp, hR, he, hg0, w1, w2, hg⟩

/-- All calls: the records are those of the other reader, up to the error. -/
theorem readN_follows (h : Follows B e m m' F R) {ρ : Type} {dec : Bytes → Bool → Dec ρ} {H D : Nat} (ht : Tame dec H)
    (hH : 2 * H ≤ B) (hD : 2 * D ≤ B) (fuel : Nat) (rs : List ρ) : ∀ (g : GReader m) (s' : m'.σ) (data : Bytes), R g.stream s' →
    g.eof = false → 0 < g.next → WithinB B D (g.over s') data →
    (∀ n, (g.over s').readN dec (fuel + 1) n = (rs.map (fun r => Res.ok (some r)) ++ List.replicate n (Res.ok none)).take n) →
    ∃ k, k ≤ rs.length ∧
      ∀ n, g.readN dec (fuel + 1) n = ((rs.take k).map (fun r => Res.ok (some r)) ++ List.replicate n (Res.err e)).take n := by
  induction rs with
  | nil =>
    intro g s' data hR he h0 hw hy
    refine ⟨0, Nat.le_refl _, fun n => ?_⟩
    simp only [List.take_nil, List.map_nil, List.nil_append, List.take_replicate, Nat.min_self]
    cases n with
    | zero => rfl
    | succ n =>
      rcases read_follows h ht hH hD (fuel + 1) g s' data hR he h0 hw with ⟨g1, h1, h2⟩ | ⟨o, g1, s1', data', h1, h2, h3, _⟩
      · unfold GReader.readN
        rw [h1, failed_readN h dec fuel n g1 h2]
        rfl
      · have := hy 1
        unfold GReader.readN at this
        rw [h2] at this
        simp [GReader.readN] at this
        exact absurd this h3
  | cons r rs ih =>
    intro g s' data hR he h0 hw hy
    rcases read_follows h ht hH hD (fuel + 1) g s' data hR he h0 hw with
      ⟨g1, h1, h2⟩ | ⟨o, g1, s1', data', h1, h2, h3, h4, h5, h6, h7⟩
    · refine ⟨0, Nat.zero_le _, fun n => ?_⟩
      simp only [List.take_zero, List.map_nil, List.nil_append, List.take_replicate, Nat.min_self]
      cases n with
      | zero => rfl
      | succ n =>
        unfold GReader.readN
        rw [h1, failed_readN h dec fuel n g1 h2]
        rfl
    · obtain ⟨k, hk, hn⟩ := ih g1 s1' data' h4 h5 h6 h7 (fun n => by
        have := hy (n + 1)
        unfold GReader.readN at this
        rw [h2] at this
        simp only [List.map_cons, List.cons_append, List.take_succ_cons, List.cons.injEq] at this
        rw [this.2]
        simp only [List.take_append, List.take_replicate]
        congr 2
        omega)
      have ho : o = .ok (some r) := by
        have := hy 1
        unfold GReader.readN at this
        rw [h2] at this
        simp only [List.map_cons, List.cons_append, List.take_succ_cons, List.cons.injEq] at this
        exact this.1
      refine ⟨k + 1, by simp only [List.length_cons]; omega, fun n => ?_⟩
      cases n with
      | zero => rfl
      | succ n =>
        unfold GReader.readN
        rw [h1, hn n, ho]
        simp only [List.take_succ_cons, List.map_cons, List.cons_append, List.take_append, List.take_replicate]
        congr 3
        omega

end

/-! ## Streams that fail after some bytes -/

/-- A stream in place of one that fails: it goes on with other bytes. -/
def patched (m : InStream) : InStream where
  σ := Option m.σ × Bytes
  read
    | (some s, d), n =>
      if n = 0 then (.ok [], (some s, d))
      else
        match m.read s n with
        | (.ok x, s1) => (.ok x, (some s1, d.drop x.length))
        | _ => (.ok (d.take n), (none, d.drop n))
    | (none, d), n => (.ok (d.take n), (none, d.drop n))

/-- A stream that delivers a part of `x` and then fails. -/
theorem patched_follows {B : Nat} {e : Err} {m : InStream} (P : m.σ → Bytes → Prop) (F : Nat → m.σ → Prop)
    (hstep : ∀ s x n, P s x → 0 < n → n ≤ B → (∃ s1, m.read s n = (.err e, s1) ∧ F n s1) ∨
      ∃ got x' s1, m.read s n = (.ok got, s1) ∧ x = got ++ x' ∧ got ≠ [] ∧ got.length ≤ n ∧ P s1 x')
    (hstuck : ∀ s k n, F k s → k ≤ n → 0 < n → n ≤ B → ∃ s1, m.read s n = (.err e, s1) ∧ F k s1)
    (hweak : ∀ s k n, F k s → k ≤ n → F n s) :
    ∃ R : m.σ → (patched m).σ → Prop, Follows B e m (patched m) F R ∧ (∀ s s', R s s' → ∃ x, P s x) ∧
      ∀ s x rest, P s x → R s (some s, x ++ rest) ∧ SuppliesTo B (patched m) (some s, x ++ rest) (x ++ rest) := by
  refine ⟨fun s s' => s'.1 = some s ∧ ∃ x rest, P s x ∧ s'.2 = x ++ rest, ⟨?_, hstuck, hweak⟩,
    fun s s' h => by obtain ⟨_, x, _, h, _⟩ := h; exact ⟨x, h⟩, fun s x rest h => ⟨⟨rfl, x, rest, h, rfl⟩, ?_⟩⟩
  · rintro s ⟨o, d⟩ n ⟨h1, x, rest, h2, h3⟩ h0 hn
    simp only at h1 h3
    subst h1 h3
    rcases hstep s x n h2 h0 hn with h | ⟨got, x', s1, g1, rfl, g3, g4, g5⟩
    · exact Or.inl h
    · right
      refine ⟨got, s1, (some s1, x' ++ rest), g1, ?_, g3, g4, rfl, x', rest, g5, rfl⟩
      simp only [patched, if_neg (show ¬ n = 0 by omega), g1, List.append_assoc, List.drop_left]
  · refine suppliesTo_of (m := patched m)
      (fun s d => s.2 = d ∧ (s.1 = none ∨ ∃ s0 x rest, s.1 = some s0 ∧ P s0 x ∧ d = x ++ rest)) ?_
      ⟨rfl, Or.inr ⟨s, x, rest, rfl, h, rfl⟩⟩
    have take : ∀ (d : Bytes) (n : Nat), d = d.take n ++ d.drop n ∧ (d.take n).length ≤ n ∧ (d.take n = [] → n = 0 ∨ d = []) := by
      intro d n
      refine ⟨(List.take_append_drop n d).symm, by simp; omega, fun hx => ?_⟩
      have := congrArg List.length hx
      simp only [List.length_take, List.length_nil] at this
      by_cases h : n = 0
      · exact Or.inl h
      · exact Or.inr (List.length_eq_zero_iff.1 (by omega))
    rintro ⟨o, d⟩ d' n ⟨rfl, ho⟩ hn
    simp only at ho
    rcases ho with rfl | ⟨s0, x, rest, rfl, hP, rfl⟩
    · obtain ⟨t1, t2, t3⟩ := take d n
      exact ⟨_, _, _, rfl, t1, t2, t3, rfl, Or.inl rfl⟩
    · by_cases h0 : n = 0
      · subst h0
        exact ⟨[], x ++ rest, (some s0, x ++ rest), by simp [patched], rfl, by simp, fun _ => Or.inl rfl, rfl, Or.inr ⟨s0, x, rest, rfl, hP, rfl⟩⟩
      · rcases hstep s0 x n hP (by omega) hn with ⟨s1, g1, _⟩ | ⟨got, x', s1, g1, rfl, g3, g4, g5⟩
        · obtain ⟨t1, t2, t3⟩ := take (x ++ rest) n
          refine ⟨_, _, (none, (x ++ rest).drop n), ?_, t1, t2, t3, rfl, Or.inl rfl⟩
          simp only [patched, if_neg h0, g1]
        · refine ⟨got, x' ++ rest, (some s1, x' ++ rest), ?_, by simp, g4, fun h => absurd h g3, rfl,
            Or.inr ⟨s1, x', rest, rfl, g5, rfl⟩⟩
          simp only [patched, if_neg h0, g1, List.append_assoc, List.drop_left]

end Mlio
