import Verif.Model.InputStream
import Verif.Spec.Utf8Stream
import Verif.Spec.Reading
import Verif.Proofs.StreamReader

/-!
# Record readers over any input stream: proofs

A reader over a stream that delivers `data` does the same as a reader over the abstract `Stream` with `data` and a suitable
schedule of short reads, namely the one that the stream happens to follow.
-/

namespace Mlio
open Spec

/-- The stream delivers `data`, whatever is asked of it. -/
def Supplies (m : InStream) (s : m.σ) (data : Bytes) : Prop := ∀ ns, TextReads false data ns (m.reads s ns)

theorem Supplies.step {m : InStream} {s : m.σ} {data : Bytes} (h : Supplies m s data) {n : Nat} (hn : 0 < n) :
    ∃ x data', (m.read s n).1 = .ok x ∧ data = x ++ data' ∧ x.length ≤ n ∧ (x = [] → data = []) ∧
      Supplies m (m.read s n).2 data' := by
  have h1 := h [n]
  simp only [InStream.reads] at h1
  generalize ho : (m.read s n).1 = o at h1
  have tail : ∀ x data', o = .ok x → data = x ++ data' → (x = [] → data = []) → Supplies m (m.read s n).2 data' := by
    intro x data' hx hd hne ns
    have h2 := h (n :: ns)
    simp only [InStream.reads] at h2
    rw [ho, hx] at h2
    generalize m.reads (m.read s n).2 ns = os at h2 ⊢
    generalize hdd : data = dd at h2
    generalize hoo : Res.ok x :: os = oo at h2
    generalize hnn : n :: ns = nn at h2
    cases h2 with
    | nil => cases hnn
    | zero text ns' os' h => cases hnn; omega
    | more x' text n' ns' os' hx' hl h =>
      cases hnn
      simp only [List.cons.injEq, Res.ok.injEq] at hoo
      obtain ⟨rfl, rfl⟩ := hoo
      rw [hd] at hdd
      rw [List.append_cancel_left hdd]
      exact h
    | done n' ns' os' hf h =>
      cases hnn
      simp only [List.cons.injEq, Res.ok.injEq] at hoo
      obtain ⟨rfl, rfl⟩ := hoo
      rw [hd] at hdd
      simp only [List.nil_append] at hdd
      rw [hdd]
      exact h
    | fault text n' ns' os' hf => cases hf
  generalize hdd : data = dd at h1
  generalize hoo : ([o] : List (Res Bytes)) = oo at h1
  generalize hnn : [n] = nn at h1
  cases h1 with
  | nil => cases hnn
  | zero text ns' os' h => cases hnn; omega
  | more x' text n' ns' os' hx' hl h =>
    cases hnn
    simp only [List.cons.injEq] at hoo
    exact ⟨x', text, hoo.1, rfl, hl, fun hx => absurd hx hx', tail x' text hoo.1 hdd fun hx => absurd hx hx'⟩
  | done n' ns' os' hf h =>
    cases hnn
    simp only [List.cons.injEq] at hoo
    exact ⟨[], [], hoo.1, rfl, by simp, fun _ => rfl, tail [] [] hoo.1 (by simpa using hdd) fun _ => hdd⟩
  | fault text n' ns' os' hf => cases hf

theorem gFill_sim (m : InStream) (fuel : Nat) : ∀ (s : m.σ) (data : Bytes) (r : Nat), r ≤ fuel → Supplies m s data →
    ∃ b e s' data' tr, gFill m fuel s r = (.ok (b, e), s') ∧ Supplies m s' data' ∧ data'.length ≤ data.length ∧
      ∀ rest, fillLoop fuel ⟨data, tr ++ rest⟩ r = some (b, ⟨data', rest⟩, e) := by
  induction fuel with
  | zero =>
    intro s data r hr hd
    have : r = 0 := by omega
    subst this
    exact ⟨[], false, s, data, [], by simp [gFill], hd, Nat.le_refl _, fun rest => by simp [fillLoop]⟩
  | succ fuel ih =>
    intro s data r hr hd
    by_cases h0 : r = 0
    · subst h0
      exact ⟨[], false, s, data, [], by simp [gFill], hd, Nat.le_refl _, fun rest => by simp [fillLoop]⟩
    · obtain ⟨x, data1, h1, h2, h3, h4, h5⟩ := hd.step (n := r) (by omega)
      generalize hrd : m.read s r = os1 at h1 h5
      obtain ⟨o, s1⟩ := os1
      simp only at h1 h5
      subst h1
      by_cases hx : x = []
      · subst hx
        have hd0 := h4 rfl
        subst hd0
        simp only [List.nil_append] at h2
        subst h2
        refine ⟨[], true, s1, [], [0], ?_, h5, Nat.le_refl _, fun rest => ?_⟩
        · simp [gFill, h0, hrd]
        · simp [fillLoop, h0, Stream.read]
      · have hlen : 0 < x.length := List.length_pos_iff.2 hx
        obtain ⟨b, e, s2, data2, tr, g1, g2, g3, g4⟩ := ih s1 data1 (r - x.length) (by omega) h5
        refine ⟨x ++ b, e, s2, data2, x.length :: tr, ?_, g2, by rw [h2, List.length_append]; omega, fun rest => ?_⟩
        · simp only [gFill, if_neg h0, hrd, if_neg (show ¬ x.length = 0 by omega), g1]
        · have hm : min r (max x.length 1) = x.length := by omega
          have hrd2 : Stream.read ⟨data, x.length :: tr ++ rest⟩ r = (x, ⟨data1, tr ++ rest⟩) := by
            simp only [Stream.read, List.cons_append, hm]
            rw [h2, List.take_left, List.drop_left]
          simp only [fillLoop, if_neg h0, hrd2, if_neg (show ¬ x.length = 0 by omega), g4]

/-- The reader over the abstract stream. -/
def GReader.conc {m : InStream} (g : GReader m) (data : Bytes) (sched : List Nat) : Reader :=
  ⟨⟨⟨data, sched⟩, g.next, g.held, g.eof⟩, g.chunk⟩

theorem nextSize_conc {m : InStream} (g : GReader m) (data : Bytes) (sched : List Nat) (l : Bytes) :
    (g.conc data sched).cr.nextSize l = g.nextSize l := rfl

theorem readChunk_sim {m : InStream} (g : GReader m) (data : Bytes) (l : Bytes) (hd : Supplies m g.stream data) :
    (∃ c g' data' tr, g.readChunk l = (.ok c, g') ∧ Supplies m g'.stream data' ∧ data'.length ≤ data.length ∧
        g'.chunk = g.chunk ∧
        ∀ rest, (g.conc data (tr ++ rest)).cr.readChunk l = .ok (c, (g'.conc data' rest).cr)) ∨
    (∃ w, g.readChunk l = (.ub w, g) ∧ ∀ rest, (g.conc data rest).cr.readChunk l = .ub w) := by
  unfold GReader.readChunk ChunkReader.readChunk
  by_cases he : g.eof = true
  · left
    refine ⟨[], g, data, [], by rw [if_pos he], hd, Nat.le_refl _, rfl, fun rest => ?_⟩
    rw [if_pos (by exact he)]
    rfl
  · by_cases hl : l.length > g.nextSize l
    · right
      refine ⟨_, by rw [if_neg he, if_pos hl], fun rest => ?_⟩
      rw [if_neg (by exact he)]
      simp only [nextSize_conc]
      exact if_pos hl
    · left
      obtain ⟨b, e, s', data', tr, h1, h2, h3, h4⟩ :=
        gFill_sim m (g.nextSize l - l.length) g.stream data (g.nextSize l - l.length) (Nat.le_refl _) hd
      refine ⟨l ++ b, { g with stream := s', next := g.nextSize l, held := if e then none else some (g.nextSize l), eof := e },
        data', tr, by rw [if_neg he, if_neg hl, h1], h2, h3, rfl, fun rest => ?_⟩
      rw [if_neg (by exact he)]
      simp only [nextSize_conc, if_neg hl]
      have h4 := h4 rest
      rw [show (g.conc data (tr ++ rest)).cr.stream = ⟨data, tr ++ rest⟩ from rfl, h4]
      exact if_neg hl

theorem read_sim {m : InStream} {ρ : Type} (dec : Bytes → Bool → Dec ρ) (fuel : Nat) : ∀ (g : GReader m) (data : Bytes),
    Supplies m g.stream data →
    ∃ o g' data' tr, g.read dec fuel = (o, g') ∧ Supplies m g'.stream data' ∧ data'.length ≤ data.length ∧
      ∀ rest, Reader.readCore dec fuel (g.conc data (tr ++ rest)) = (o, g'.conc data' rest) ∨
        (∃ w, o = .ub w) ∧ (Reader.readCore dec fuel (g.conc data (tr ++ rest))).1 = o := by
  induction fuel with
  | zero => intro g data hd; exact ⟨_, g, data, [], rfl, hd, Nat.le_refl _, fun rest => Or.inl rfl⟩
  | succ fuel ih =>
    intro g data hd
    have hdec : ∀ sched, dec (g.conc data sched).chunk (!(g.conc data sched).cr.eof) = dec g.chunk (!g.eof) := fun _ => rfl
    unfold GReader.read Reader.readCore
    simp only [hdec]
    cases hc : dec g.chunk (!g.eof) with
    | got r rest => exact ⟨_, _, data, [], rfl, hd, Nat.le_refl _, fun rest => Or.inl rfl⟩
    | fail e rest => exact ⟨_, _, data, [], rfl, hd, Nat.le_refl _, fun rest => Or.inl rfl⟩
    | ub w => exact ⟨_, g, data, [], rfl, hd, Nat.le_refl _, fun rest => Or.inl rfl⟩
    | more l hint =>
      simp only
      rcases readChunk_sim { g with next := growHint hint g.next hint } data l hd with
        ⟨c, g', data', tr, h1, h2, h3, h4, h5⟩ | ⟨w, h1, h5⟩
      · simp only [h1]
        by_cases hce : c.isEmpty = true
        · refine ⟨.ok none, { g' with chunk := c }, data', tr, by rw [if_pos hce], h2, h3, fun rest => Or.inl ?_⟩
          have h5 := h5 rest
          simp only [GReader.conc] at h5 ⊢
          rw [h5]
          simp only [if_pos hce]
        · obtain ⟨o, g2, data2, tr2, k1, k2, k3, k4⟩ := ih { g' with chunk := c } data' h2
          refine ⟨o, g2, data2, tr ++ tr2, by rw [if_neg hce]; exact k1, k2, by omega, fun rest => ?_⟩
          have h5 := h5 (tr2 ++ rest)
          have k4 := k4 rest
          simp only [GReader.conc, List.append_assoc] at h5 k4 ⊢
          rw [h5]
          simp only [if_neg hce]
          exact k4
      · simp only [h1]
        refine ⟨_, _, data, [], rfl, hd, Nat.le_refl _, fun rest => Or.inr ⟨⟨w, rfl⟩, ?_⟩⟩
        have h5 := h5 rest
        simp only [GReader.conc, List.nil_append] at h5 ⊢
        rw [h5]

theorem readCore_mono {ρ : Type} (dec : Bytes → Bool → Dec ρ) (fuel k : Nat) : ∀ (st : Reader),
    (Reader.readCore dec fuel st).1 ≠ .err .diverges → Reader.readCore dec (fuel + k) st = Reader.readCore dec fuel st := by
  induction fuel with
  | zero => intro st h; exact absurd rfl h
  | succ fuel ih =>
    intro st h
    rw [Nat.add_right_comm]
    unfold Reader.readCore at h ⊢
    split <;> try rfl
    next rest hint hc =>
      simp only [hc] at h
      simp only at h ⊢
      split <;> try rfl
      next chunk cr' hr =>
        simp only [hr] at h
        split
        · rfl
        · next hce =>
          rw [if_neg hce] at h
          exact ih _ h

/-- Reading over a stream that delivers `data` gives what reading over the abstract stream with `data` gives for every
schedule, if that is never undefined behaviour and always ends. -/
theorem readN_sim {m : InStream} {ρ : Type} (dec : Bytes → Bool → Dec ρ) (fuel : Nat) (n : Nat) :
    ∀ (g : GReader m) (data : Bytes), Supplies m g.stream data → data.length + 2 ≤ fuel →
      (∀ sched, Res.err .diverges ∉ (g.conc data sched).readN dec n ∧ ∀ w, Res.ub w ∉ (g.conc data sched).readN dec n) →
      ∃ tr, ∀ rest, (g.conc data (tr ++ rest)).readN dec n = g.readN dec fuel n := by
  induction n with
  | zero => intro g data _ _ _; exact ⟨[], fun rest => rfl⟩
  | succ n ih =>
    intro g data hd hf hok
    obtain ⟨o, g', data', tr, h1, h2, h3, h4⟩ := read_sim dec fuel g data hd
    have mono : ∀ sched, Reader.read dec (g.conc data sched) = Reader.readCore dec fuel (g.conc data sched) := by
      intro sched
      have hne : (Reader.readCore dec (data.length + 2) (g.conc data sched)).1 ≠ .err .diverges := by
        intro hx
        apply (hok sched).1
        unfold Reader.readN
        show Res.err .diverges ∈ (Reader.read dec (g.conc data sched)).1 :: _
        rw [show Reader.read dec (g.conc data sched) = Reader.readCore dec (data.length + 2) (g.conc data sched) from rfl, hx]
        exact List.mem_cons_self ..
      have := readCore_mono dec (data.length + 2) (fuel - (data.length + 2)) (g.conc data sched) hne
      rw [Nat.add_sub_cancel' hf] at this
      rw [this]
      rfl
    have hcons : ∀ st : Reader, st.readN dec (n + 1) = (Reader.read dec st).1 :: (Reader.read dec st).2.readN dec n :=
      fun _ => rfl
    have hno : ∀ rest, Reader.readCore dec fuel (g.conc data (tr ++ rest)) = (o, g'.conc data' rest) := by
      intro rest
      rcases h4 rest with h | ⟨⟨w, hw⟩, h⟩
      · exact h
      · exfalso
        apply (hok (tr ++ rest)).2 w
        rw [hcons, mono, h, hw]
        exact List.mem_cons_self ..
    obtain ⟨tr2, h5⟩ := ih g' data' h2 (by omega) (fun sched => by
      have := hok (tr ++ sched)
      rw [hcons, mono, hno] at this
      exact ⟨fun hx => this.1 (List.mem_cons_of_mem _ hx), fun w hx => this.2 w (List.mem_cons_of_mem _ hx)⟩)
    refine ⟨tr ++ tr2, fun rest => ?_⟩
    rw [List.append_assoc, hcons, mono, hno]
    simp only [GReader.readN, h1]
    rw [h5]

/-- The form in which this is used. -/
theorem greader_readN {m : InStream} {ρ : Type} (dec : Bytes → Bool → Dec ρ) (size fuel n : Nat) (s : m.σ) (data : Bytes)
    (hd : Supplies m s data) (hf : data.length + 2 ≤ fuel) (out : List (Res (Option ρ)))
    (h : ∀ sched, (Reader.init size data sched).readN dec n = out) (h1 : Res.err .diverges ∉ out)
    (h2 : ∀ w, Res.ub w ∉ out) : (GReader.init size s : GReader m).readN dec fuel n = out := by
  obtain ⟨tr, h3⟩ := readN_sim dec fuel n (GReader.init size s : GReader m) data hd hf (fun sched => by
    rw [show (GReader.init size s : GReader m).conc data sched = Reader.init size data sched from rfl, h]
    exact ⟨h1, h2⟩)
  rw [← h3 [], show (GReader.init size s : GReader m).conc data (tr ++ []) = Reader.init size data (tr ++ []) from rfl, h]

end Mlio
