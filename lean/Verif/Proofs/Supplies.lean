import Verif.Proofs.InputStream

/-!
# Streams that deliver bytes, if not too many are asked for at once
-/

namespace Mlio
open Spec

/-- The stream delivers `data`, as long as no read asks for more than `B` bytes. -/
def SuppliesTo (B : Nat) (m : InStream) (s : m.σ) (data : Bytes) : Prop :=
  ∀ ns, (∀ n ∈ ns, n ≤ B) → TextReads false data ns (m.reads s ns)

theorem SuppliesTo.mono {B C : Nat} {m : InStream} {s : m.σ} {data : Bytes} (h : SuppliesTo B m s data) (hc : C ≤ B) :
    SuppliesTo C m s data :=
  fun ns hn => h ns fun n hm => Nat.le_trans (hn n hm) hc

theorem SuppliesTo.step {B : Nat} {m : InStream} {s : m.σ} {data : Bytes} (h : SuppliesTo B m s data) {n : Nat} (hn : n ≤ B) :
    ∃ x data', (m.read s n).1 = .ok x ∧ data = x ++ data' ∧ x.length ≤ n ∧ (x = [] → n = 0 ∨ data = []) ∧
      SuppliesTo B m (m.read s n).2 data' := by
  have h1 := h [n] (by simpa using hn)
  simp only [InStream.reads] at h1
  generalize ho : (m.read s n).1 = o at h1
  have tail : ∀ x data', o = .ok x → data = x ++ data' → (x = [] → n = 0 ∨ data = []) → SuppliesTo B m (m.read s n).2 data' := by
    intro x data' hx hd hne ns hns
    have h2 := h (n :: ns) (by
      intro k hk
      rcases List.mem_cons.1 hk with rfl | hk
      · exact hn
      · exact hns k hk)
    simp only [InStream.reads] at h2
    rw [ho, hx] at h2
    generalize m.reads (m.read s n).2 ns = os at h2 ⊢
    generalize hdd : data = dd at h2
    generalize hoo : Res.ok x :: os = oo at h2
    generalize hnn : n :: ns = nn at h2
    cases h2 with
    | nil => cases hnn
    | zero text ns' os' h =>
      cases hnn
      simp only [List.cons.injEq, Res.ok.injEq] at hoo
      obtain ⟨rfl, rfl⟩ := hoo
      rw [hd, List.nil_append] at hdd
      rw [hdd]
      exact h
    | more x' text n' ns' os' hx' hl h =>
      cases hnn
      simp only [List.cons.injEq, Res.ok.injEq] at hoo
      obtain ⟨rfl, rfl⟩ := hoo
      rw [hd] at hdd
      rw [List.append_cancel_left hdd]
      exact h
    | done n' ns' os' hf h =>
      cases hnn
      simp only [List.cons.injEq, Res.ok.injEq] at hoo
      obtain ⟨rfl, rfl⟩ := hoo
      rw [hd] at hdd
      simp only [List.nil_append] at hdd
      rw [hdd]
      exact h
    | fault text n' ns' os' hf => cases hf
  generalize hdd : data = dd at h1
  generalize hoo : ([o] : List (Res Bytes)) = oo at h1
  generalize hnn : [n] = nn at h1
  cases h1 with
  | nil => cases hnn
  | zero text ns' os' h =>
    cases hnn
    simp only [List.cons.injEq] at hoo
    exact ⟨[], dd, hoo.1, rfl, by simp, fun _ => Or.inl rfl, tail [] dd hoo.1 (by simpa using hdd) fun _ => Or.inl rfl⟩
  | more x' text n' ns' os' hx' hl h =>
    cases hnn
    simp only [List.cons.injEq] at hoo
    exact ⟨x', text, hoo.1, rfl, hl, fun hx => absurd hx hx', tail x' text hoo.1 hdd fun hx => absurd hx hx'⟩
  | done n' ns' os' hf h =>
    cases hnn
    simp only [List.cons.injEq] at hoo
    exact ⟨[], [], hoo.1, rfl, by simp, fun _ => Or.inr rfl, tail [] [] hoo.1 (by simpa using hdd) fun _ => Or.inr hdd⟩
  | fault text n' ns' os' hf => cases hf

/-- To show that a stream delivers bytes, one gives a relation that reads preserve. -/
theorem suppliesTo_of {B : Nat} {m : InStream} (R : m.σ → Bytes → Prop)
    (hstep : ∀ s data n, R s data → n ≤ B → ∃ x data' s', m.read s n = (.ok x, s') ∧ data = x ++ data' ∧ x.length ≤ n ∧
      (x = [] → n = 0 ∨ data = []) ∧ R s' data') {s : m.σ} {data : Bytes} (h : R s data) : SuppliesTo B m s data := by
  intro ns
  induction ns generalizing s data with
  | nil => intro _; exact .nil _
  | cons n ns ih =>
    intro hns
    obtain ⟨x, data', s', h1, h2, h3, h4, h5⟩ := hstep s data n h (hns n (by simp))
    have h6 := ih h5 (fun k hk => hns k (by simp [hk]))
    simp only [InStream.reads, h1]
    by_cases hx : x = []
    · subst hx
      simp only [List.nil_append] at h2
      subst h2
      rcases h4 rfl with h | h
      · subst h; exact .zero _ _ _ h6
      · subst h; exact .done _ _ _ rfl h6
    · rw [h2]
      exact .more _ _ _ _ _ hx h3 h6

/-- A stream that answers only requests of up to `B` bytes in full. -/
abbrev InStream.capped (m : InStream) (B : Nat) : InStream where
  σ := m.σ
  read s n := m.read s (min n B)

theorem SuppliesTo.capped {B : Nat} (hB : 0 < B) {m : InStream} {s : m.σ} {data : Bytes} (h : SuppliesTo B m s data) :
    Supplies (m.capped B) s data := by
  intro ns
  refine (suppliesTo_of (B := ns.sum) (m := m.capped B) (SuppliesTo B m) ?_ h) ns
    (fun n hn => by
      clear h
      induction ns with
      | nil => cases hn
      | cons k ns ih =>
        rcases List.mem_cons.1 hn with rfl | hn
        · simp
        · have := ih hn; simp only [List.sum_cons]; omega)
  intro s data n h _
  obtain ⟨x, data', h1, h2, h3, h4, h5⟩ := h.step (n := min n B) (by omega)
  refine ⟨x, data', (m.read s (min n B)).2, ?_, h2, by omega, fun hx => ?_, h5⟩
  · show m.read s (min n B) = _
    rw [← h1]
  · rcases h4 hx with h | h
    · exact Or.inl (by omega)
    · exact Or.inr h

/-! ## Record readers -/

/-- The decoder leaves no more than it was given, and its hints are bounded. -/
def Tame {ρ : Type} (dec : Bytes → Bool → Dec ρ) (H : Nat) : Prop :=
  ∀ chunk ig, match dec chunk ig with
    | .got _ rest => rest.length ≤ chunk.length
    | .fail _ rest => rest.length ≤ chunk.length
    | .more rest hint => rest.length ≤ chunk.length ∧ hint ≤ H
    | .ub _ => True

theorem growHint_le (fuel : Nat) : ∀ (next value : Nat), growHint fuel next value ≤ max next (2 * value) := by
  induction fuel with
  | zero => intro next value; simp [growHint]; omega
  | succ fuel ih =>
    intro next value
    unfold growHint
    split
    · have := ih (next * 2) value
      omega
    · omega

theorem gFill_capped (m : InStream) (B fuel : Nat) : ∀ (s : m.σ) (r : Nat), r ≤ B →
    gFill (m.capped B) fuel s r = gFill m fuel s r := by
  induction fuel with
  | zero => intro s r _; rfl
  | succ fuel ih =>
    intro s r hr
    have e : (m.capped B).read s r = m.read s r := by
      show m.read s (min r B) = _
      rw [Nat.min_eq_left hr]
    simp only [gFill]
    by_cases h0 : r = 0
    · rw [if_pos h0, if_pos h0]
    · rw [if_neg h0, if_neg h0, e]
      rcases m.read s r with ⟨x | e | w, s'⟩
      · simp only
        split
        · rfl
        · rw [ih s' (r - x.length) (by omega)]
          rcases gFill m fuel s' (r - x.length) with ⟨⟨y, e⟩ | e | w, s''⟩ <;> rfl
      · rfl
      · rfl

/-- The reader over the capped stream. -/
def GReader.cap {m : InStream} (B : Nat) (g : GReader m) : GReader (m.capped B) := ⟨g.stream, g.next, g.held, g.eof, g.chunk⟩

theorem gFill_data (m : InStream) (fuel : Nat) : ∀ (s : m.σ) (data : Bytes) (r : Nat), r ≤ fuel → Supplies m s data →
    ∃ b e s' data', gFill m fuel s r = (.ok (b, e), s') ∧ Supplies m s' data' ∧ data = b ++ data' ∧ b.length ≤ r := by
  induction fuel with
  | zero =>
    intro s data r hr hd
    have : r = 0 := by omega
    subst this
    exact ⟨[], false, s, data, by simp [gFill], hd, rfl, by simp⟩
  | succ fuel ih =>
    intro s data r hr hd
    by_cases h0 : r = 0
    · subst h0
      exact ⟨[], false, s, data, by simp [gFill], hd, rfl, by simp⟩
    · obtain ⟨x, data1, h1, h2, h3, h4, h5⟩ := hd.step (n := r) (by omega)
      generalize hrd : m.read s r = os1 at h1 h5
      obtain ⟨o, s1⟩ := os1
      simp only at h1 h5
      subst h1
      by_cases hx : x = []
      · subst hx
        exact ⟨[], true, s1, data1, by simp [gFill, h0, hrd], h5, h2, by simp⟩
      · have hlen : 0 < x.length := List.length_pos_iff.2 hx
        obtain ⟨b, e, s2, data2, g1, g2, g3, g4⟩ := ih s1 data1 (r - x.length) (by omega) h5
        refine ⟨x ++ b, e, s2, data2, ?_, g2, by rw [h2, g3, List.append_assoc], by simp only [List.length_append]; omega⟩
        simp only [gFill, if_neg h0, hrd, if_neg (show ¬ x.length = 0 by omega), g1]

/-- What holds of a reader that never asks for more than `B` bytes. -/
structure WithinB {m : InStream} (B D : Nat) (g : GReader m) (data : Bytes) : Prop where
  supplies : Supplies (m.capped B) g.stream data
  size : g.chunk.length + data.length ≤ D
  next : g.next ≤ B

theorem readChunk_capped {m : InStream} {B D : Nat} (hD : 2 * D ≤ B) (g : GReader m) (data l : Bytes)
    (hs : Supplies (m.capped B) g.stream data) (hl : l.length + data.length ≤ D) (hnext : g.next ≤ B) :
    ∃ o g' , g.readChunk l = (o, g') ∧ (g.cap B).readChunk l = (o, g'.cap B) ∧
      g'.chunk = g.chunk ∧ g'.next ≤ B ∧
      ∃ data', Supplies (m.capped B) g'.stream data' ∧
        ((∃ c, o = .ok c ∧ c.length + data'.length ≤ D) ∨ (∃ w, o = .ub w ∧ data' = data)) := by
  have hns : g.nextSize l ≤ B := by
    unfold GReader.nextSize
    split
    · split
      · omega
      · exact hnext
    · exact hnext
  have hcap : (g.cap B).nextSize l = g.nextSize l := rfl
  unfold GReader.readChunk
  rw [show (g.cap B).eof = g.eof from rfl, hcap]
  by_cases he : g.eof = true
  · rw [if_pos he, if_pos he]
    exact ⟨_, g, rfl, rfl, rfl, hnext, data, hs, Or.inl ⟨[], rfl, by simp; omega⟩⟩
  · rw [if_neg he, if_neg he]
    by_cases hlen : l.length > g.nextSize l
    · rw [if_pos hlen, if_pos hlen]
      exact ⟨_, g, rfl, rfl, rfl, hnext, data, hs, Or.inr ⟨_, rfl, rfl⟩⟩
    · rw [if_neg hlen, if_neg hlen]
      obtain ⟨b, e, s', data', h1, h2, h3, h4⟩ :=
        gFill_data (m.capped B) (g.nextSize l - l.length) g.stream data (g.nextSize l - l.length) (Nat.le_refl _) hs
      have h1' : gFill m (g.nextSize l - l.length) g.stream (g.nextSize l - l.length) = (.ok (b, e), s') := by
        rw [← gFill_capped m B _ g.stream _ (by omega)]; exact h1
      have h1'' : gFill (m.capped B) (g.nextSize l - l.length) (g.cap B).stream (g.nextSize l - l.length) = (.ok (b, e), s') := h1
      rw [h1', h1'']
      refine ⟨_, _, rfl, rfl, rfl, hns, data', h2, Or.inl ⟨_, rfl, ?_⟩⟩
      rw [h3] at hl
      simp only [List.length_append] at hl ⊢
      omega

theorem read_capped {m : InStream} {ρ : Type} {dec : Bytes → Bool → Dec ρ} {H B D : Nat} (ht : Tame dec H) (hH : 2 * H ≤ B)
    (hD : 2 * D ≤ B) (fuel : Nat) : ∀ (g : GReader m) (data : Bytes), WithinB B D g data →
    ∃ o g' data', g.read dec fuel = (o, g') ∧ (g.cap B).read dec fuel = (o, g'.cap B) ∧ WithinB B D g' data' := by
  induction fuel with
  | zero => intro g data h; exact ⟨_, g, data, rfl, rfl, h⟩
  | succ fuel ih =>
    intro g data h
    unfold GReader.read
    rw [show (g.cap B).chunk = g.chunk from rfl, show (g.cap B).eof = g.eof from rfl]
    have htame := ht g.chunk (!g.eof)
    cases hc : dec g.chunk (!g.eof) with
    | got r rest =>
      rw [hc] at htame
      exact ⟨_, _, data, rfl, rfl, h.supplies, by have := h.size; simp only; omega, h.next⟩
    | fail e rest =>
      rw [hc] at htame
      exact ⟨_, _, data, rfl, rfl, h.supplies, by have := h.size; simp only; omega, h.next⟩
    | ub w => exact ⟨_, g, data, rfl, rfl, h⟩
    | more l hint =>
      rw [hc] at htame
      simp only at htame ⊢
      have hg : growHint hint g.next hint ≤ B := by
        have := growHint_le hint g.next hint
        have := h.next
        omega
      obtain ⟨o, g', h1, h2, h3, h4, data', h5, h6⟩ := readChunk_capped hD { g with next := growHint hint g.next hint } data l
        h.supplies (by have := h.size; omega) hg
      have h2' : GReader.readChunk (⟨(g.cap B).stream, growHint hint (g.cap B).next hint, (g.cap B).held, g.eof, g.chunk⟩ :
          GReader (m.capped B)) l = (o, g'.cap B) := h2
      rw [h1, h2']
      rcases h6 with ⟨c, rfl, hcl⟩ | ⟨w, rfl, rfl⟩
      · simp only
        by_cases hce : c.isEmpty = true
        · rw [if_pos hce, if_pos hce]
          exact ⟨_, _, data', rfl, rfl, h5, hcl, h4⟩
        · rw [if_neg hce, if_neg hce]
          exact ih { g' with chunk := c } data' ⟨h5, hcl, h4⟩
      · refine ⟨_, g', _, rfl, rfl, h5, ?_, h4⟩
        rw [h3]
        exact h.size

theorem readN_capped {m : InStream} {ρ : Type} {dec : Bytes → Bool → Dec ρ} {H B D : Nat} (ht : Tame dec H) (hH : 2 * H ≤ B)
    (hD : 2 * D ≤ B) (fuel n : Nat) : ∀ (g : GReader m) (data : Bytes), WithinB B D g data →
    g.readN dec fuel n = (g.cap B).readN dec fuel n := by
  induction n with
  | zero => intro g data _; rfl
  | succ n ih =>
    intro g data h
    obtain ⟨o, g', data', h1, h2, h3⟩ := read_capped ht hH hD fuel g data h
    unfold GReader.readN
    rw [h1, h2]
    exact congrArg (_ :: ·) (ih g' data' h3)

/-- `greader_readN` for streams that deliver only so much at once. -/
theorem greader_readN_to {m : InStream} {ρ : Type} {dec : Bytes → Bool → Dec ρ} {H : Nat} (ht : Tame dec H) (size fuel n : Nat)
    (s : m.σ) (data : Bytes) (B : Nat) (hB : 0 < B) (hsize : size ≤ B) (hH : 2 * H ≤ B) (hD : 2 * data.length ≤ B)
    (hd : SuppliesTo B m s data) (hf : data.length + 2 ≤ fuel) (out : List (Res (Option ρ)))
    (h : ∀ sched, (Reader.init size data sched).readN dec n = out) (h1 : Res.err .diverges ∉ out)
    (h2 : ∀ w, Res.ub w ∉ out) : (GReader.init size s : GReader m).readN dec fuel n = out := by
  rw [readN_capped ht hH hD fuel n (GReader.init size s) data ⟨hd.capped hB, by simp [GReader.init], hsize⟩]
  exact greader_readN (m := m.capped B) dec size fuel n s data (hd.capped hB) hf out h h1 h2

end Mlio
