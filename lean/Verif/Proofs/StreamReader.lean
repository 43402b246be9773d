import Verif.Spec.Reading

/-!
# Chunked reading refines whole-contents reading

Generic in the decoder: `Laws dec Good` collects what a decoder has to satisfy.
-/

namespace Mlio

theorem wholeStep_got {ρ : Type} {dec : Bytes → Bool → Dec ρ} {x rest : Bytes} {r : ρ}
    (h : dec x false = .got r rest) : wholeStep dec x = (.ok (some r), rest) := by
  simp only [wholeStep, h]

theorem wholeN_got {ρ : Type} {dec : Bytes → Bool → Dec ρ} {x rest : Bytes} {r : ρ} {n : Nat}
    (h : dec x false = .got r rest) : wholeN dec (n + 1) x = .ok (some r) :: wholeN dec n rest := by
  simp only [wholeN, wholeStep_got h]

theorem wholeN_more {ρ : Type} {dec : Bytes → Bool → Dec ρ} {x rest : Bytes} {k : Nat} {n : Nat}
    (h : dec x false = .more rest k) : wholeN dec (n + 1) x = .ok none :: wholeN dec n [] := by
  simp only [wholeN, wholeStep, h]

theorem wholeN_nil {ρ : Type} {dec : Bytes → Bool → Dec ρ} {k : Nat} (n : Nat)
    (h : dec [] false = .more [] k) : wholeN dec n [] = List.replicate n (.ok none) := by
  induction n with
  | zero => rfl
  | succ n ih => rw [wholeN_more h, ih]; rfl

theorem Stream.read_spec (s : Stream) (n : Nat) (hn : 0 < n) :
    (s.read n).1 ++ (s.read n).2.data = s.data ∧ (s.read n).1.length ≤ n ∧
    ((s.read n).1.length = 0 → s.data = []) := by
  obtain ⟨data, sched⟩ := s
  cases sched with
  | nil =>
    simp [Stream.read]
    refine ⟨Nat.min_le_left _ _, ?_⟩
    rintro (h | h)
    · omega
    · exact h
  | cons k ks =>
    simp [Stream.read]
    refine ⟨by omega, ?_⟩
    rintro (h | h)
    · omega
    · exact h

theorem fillLoop_spec : ∀ (fuel : Nat) (s : Stream) (rem : Nat), rem ≤ fuel →
    ∃ got s' e, fillLoop fuel s rem = some (got, s', e) ∧ got ++ s'.data = s.data ∧
      got.length ≤ rem ∧ (e = true → s'.data = []) ∧ (e = false → got.length = rem) := by
  intro fuel
  induction fuel with
  | zero =>
    intro s rem h
    have : rem = 0 := by omega
    subst this
    exact ⟨[], s, false, by simp [fillLoop], by simp, by simp, by simp, by simp⟩
  | succ fuel ih =>
    intro s rem h
    by_cases h0 : rem = 0
    · subst h0
      exact ⟨[], s, false, by simp [fillLoop], by simp, by simp, by simp, by simp⟩
    · obtain ⟨h1, h2, h3⟩ := s.read_spec rem (by omega)
      by_cases hz : (s.read rem).1.length = 0
      · refine ⟨[], (s.read rem).2, true, ?_, ?_, by simp, ?_, by simp⟩
        · simp only [fillLoop, h0, if_false]
          simp [hz]
        · have : (s.read rem).1 = [] := List.eq_nil_of_length_eq_zero hz
          rw [this] at h1; simpa using h1
        · intro _
          have hd := h3 hz
          have : (s.read rem).1 = [] := List.eq_nil_of_length_eq_zero hz
          rw [this, hd] at h1; simpa using h1
      · obtain ⟨got, s', e, e1, e2, e3, e4, e5⟩ :=
          ih (s.read rem).2 (rem - (s.read rem).1.length) (by omega)
        refine ⟨(s.read rem).1 ++ got, s', e, ?_, ?_, ?_, e4, ?_⟩
        · simp only [fillLoop, h0, if_false]
          simp [hz, e1]
        · rw [List.append_assoc, e2, h1]
        · simp; omega
        · intro he
          have := e5 he
          simp; omega

theorem growHint_ge : ∀ (fuel next value : Nat), next ≤ growHint fuel next value := by
  intro fuel
  induction fuel with
  | zero => intro n v; simp [growHint]
  | succ f ih =>
    intro n v
    simp only [growHint]
    split
    · have := ih (n * 2) v; omega
    · omega

/-- The hint loop does reach the requested size. -/
theorem growHint_reaches : ∀ (fuel next value : Nat), 0 < next → value ≤ next + fuel →
    value ≤ growHint fuel next value := by
  intro fuel
  induction fuel with
  | zero => intro n v _ h; simpa [growHint] using h
  | succ f ih =>
    intro n v hn h
    simp only [growHint]
    split
    · exact ih (n * 2) v (by omega) (by omega)
    · omega

/-- Everything that is still to come: undecoded bytes and unread bytes. -/
def Reader.total (st : Reader) : Bytes := st.chunk ++ st.cr.stream.data

/-- Invariant of a reader. -/
structure Reader.Inv (st : Reader) : Prop where
  pos : 0 < st.cr.next
  none_empty : st.cr.eof = false → st.cr.held = none → st.chunk = []
  held_le : ∀ c, st.cr.held = some c → c ≤ st.cr.next ∧ st.chunk.length ≤ c
  eof_done : st.cr.eof = true → st.cr.stream.data = []

theorem Reader.init_inv (size : Nat) (h : 0 < size) (data : Bytes) (sched : List Nat) :
    (Reader.init size data sched).Inv := by
  refine ⟨h, ?_, ?_, ?_⟩ <;> simp [Reader.init]

/-- What a decoder has to satisfy for chunking to be invisible.
`Good` is a predicate on the remaining contents. -/
structure Laws {ρ : Type} (dec : Bytes → Bool → Dec ρ) (Good : Bytes → Prop) : Prop where
  empty : ∀ ig, ∃ h, dec [] ig = .more [] h
  got : ∀ s t r rest, Good (s ++ t) → dec s true = .got r rest →
    (wholeStep dec (s ++ t)).1 = .ok (some r) ∧
    (∀ n, wholeN dec n (wholeStep dec (s ++ t)).2 = wholeN dec n (rest ++ t)) ∧ Good (rest ++ t)
  fail : ∀ s t e rest, Good (s ++ t) → dec s true = .fail e rest →
    (wholeStep dec (s ++ t)).1 = .err e ∧
    (∀ n, wholeN dec n (wholeStep dec (s ++ t)).2 = wholeN dec n (rest ++ t)) ∧ Good (rest ++ t)
  more : ∀ s t rest h, Good (s ++ t) → dec s true = .more rest h →
    (∀ n, wholeN dec n (s ++ t) = wholeN dec n (rest ++ t)) ∧ Good (rest ++ t)
  noub : ∀ s ig w, dec s ig ≠ .ub w
  shrink_got : ∀ s ig r rest, dec s ig = .got r rest → rest.length ≤ s.length
  shrink_fail : ∀ s ig e rest, dec s ig = .fail e rest → rest.length ≤ s.length
  shrink_more : ∀ s ig h rest, dec s ig = .more rest h → rest.length ≤ s.length
  good_got : ∀ s r rest, Good s → dec s false = .got r rest → Good rest
  good_fail : ∀ s e rest, Good s → dec s false = .fail e rest → Good rest
  good_nil : Good []

/-- Behaviour of `read_chunk` when not at the end. -/
theorem readChunk_spec (c : ChunkReader) (leftover : Bytes) (heof : c.eof = false)
    (hpos : 0 < c.next)
    (hnone : c.held = none → leftover = [])
    (hheld : ∀ k, c.held = some k → k ≤ c.next ∧ leftover.length ≤ k) :
    ∃ chunk cr', c.readChunk leftover = .ok (chunk, cr') ∧
      chunk ++ cr'.stream.data = leftover ++ c.stream.data ∧
      Reader.Inv ⟨cr', chunk⟩ ∧
      (cr'.eof = false → cr'.stream.data.length < c.stream.data.length) := by
  generalize hnext : c.nextSize leftover = next
  have hlt : leftover.length < next := by
    subst hnext
    simp only [ChunkReader.nextSize]
    cases hh : c.held with
    | none => simp [hnone hh]; exact hpos
    | some k =>
      obtain ⟨h1, h2⟩ := hheld k hh
      simp only
      split <;> omega
  obtain ⟨got, s', e, e1, e2, e3, e4, e5⟩ :=
    fillLoop_spec (next - leftover.length) c.stream (next - leftover.length) (Nat.le_refl _)
  refine ⟨leftover ++ got,
    { stream := s', next := next, held := if e then none else some next, eof := e }, ?_, ?_, ?_, ?_⟩
  · simp only [ChunkReader.readChunk, heof, hnext]
    have : ¬ leftover.length > next := by omega
    simp [this, e1]
  · simp [List.append_assoc, e2]
  · refine ⟨by simp; omega, ?_, ?_, ?_⟩
    · simp; intro h h'; rw [h] at h'; simp at h'
    · intro k; cases e <;> simp
      intro hk; subst hk
      have := e5 rfl
      omega
    · simpa using e4
  · simp only
    intro he
    have h5 := e5 he
    rw [← e2]; simp; omega

/-- Iterations that `read_record_core` may still need. -/
def Reader.need (st : Reader) : Nat := if st.cr.eof then 1 else st.cr.stream.data.length + 2

theorem readCore_spec {ρ : Type} {dec : Bytes → Bool → Dec ρ} {Good : Bytes → Prop}
    (L : Laws dec Good) :
    ∀ (fuel : Nat) (st : Reader), st.Inv → Good st.total → st.need ≤ fuel →
      (st.readCore dec fuel).1 = (wholeStep dec st.total).1 ∧
      (st.readCore dec fuel).2.Inv ∧ Good (st.readCore dec fuel).2.total ∧
      ∀ n, wholeN dec n (wholeStep dec st.total).2 = wholeN dec n (st.readCore dec fuel).2.total := by
  intro fuel
  induction fuel with
  | zero =>
    intro st _ _ h
    simp [Reader.need] at h
    split at h <;> omega
  | succ fuel ih =>
    intro st hi hg hn
    obtain ⟨cr, chunk⟩ := st
    by_cases he : cr.eof = true
    · -- at the end of the stream
      have hd : cr.stream.data = [] := hi.eof_done he
      have ht : Reader.total ⟨cr, chunk⟩ = chunk := by simp [Reader.total, hd]
      rw [ht] at hg
      simp only [Reader.readCore, he, Bool.not_true]
      rw [ht]
      have hinv : ∀ rest : Bytes, rest.length ≤ chunk.length → Reader.Inv ⟨cr, rest⟩ := by
        intro rest hl
        refine ⟨hi.pos, by simp [he], ?_, hi.eof_done⟩
        intro c hc
        have := hi.held_le c hc
        simp only at this ⊢
        omega
      cases hdec : dec chunk false with
      | got r rest =>
        simp only [wholeStep, hdec, Reader.total, hd, List.append_nil]
        exact ⟨trivial, hinv _ (L.shrink_got _ _ _ _ hdec), L.good_got _ _ _ hg hdec, fun _ => trivial⟩
      | fail e rest =>
        simp only [wholeStep, hdec, Reader.total, hd, List.append_nil]
        exact ⟨trivial, hinv _ (L.shrink_fail _ _ _ _ hdec), L.good_fail _ _ _ hg hdec, fun _ => trivial⟩
      | ub w => exact absurd hdec (L.noub _ _ _)
      | more rest h =>
        simp only [wholeStep, hdec, ChunkReader.readChunk, he, if_true, List.isEmpty_nil]
        refine ⟨trivial, ?_, ?_, ?_⟩
        · refine ⟨?_, by simp, ?_, fun _ => hd⟩
          · exact Nat.lt_of_lt_of_le hi.pos (growHint_ge _ _ _)
          · intro c hc
            have := hi.held_le c hc
            have h2 := growHint_ge h cr.next h
            simp only [List.length_nil] at this ⊢
            omega
        · simpa [Reader.total, hd] using L.good_nil
        · intro n; simp [Reader.total, hd]
    · have he : cr.eof = false := by simpa using he
      simp only [Reader.readCore, he, Bool.not_false]
      have hinv : ∀ rest : Bytes, rest.length ≤ chunk.length → Reader.Inv ⟨cr, rest⟩ := by
        intro rest hl
        refine ⟨hi.pos, ?_, ?_, hi.eof_done⟩
        · intro h1 h2
          have := hi.none_empty h1 h2
          simp only at this
          subst this
          exact List.eq_nil_of_length_eq_zero (by simpa using hl)
        · intro c hc
          have := hi.held_le c hc
          simp only at this ⊢
          omega
      simp only [Reader.total] at hg
      cases hdec : dec chunk true with
      | got r rest =>
        obtain ⟨h1, h2, h3⟩ := L.got _ _ _ _ hg hdec
        exact ⟨h1.symm, hinv _ (L.shrink_got _ _ _ _ hdec), h3, h2⟩
      | fail e rest =>
        obtain ⟨h1, h2, h3⟩ := L.fail _ _ _ _ hg hdec
        exact ⟨h1.symm, hinv _ (L.shrink_fail _ _ _ _ hdec), h3, h2⟩
      | ub w => exact absurd hdec (L.noub _ _ _)
      | more rest h =>
        obtain ⟨h1, h2⟩ := L.more _ _ _ _ hg hdec
        have hr := hinv _ (L.shrink_more _ _ _ _ hdec)
        obtain ⟨chunk', cr', e1, e2, e3, e4⟩ :=
          readChunk_spec
            { stream := cr.stream, next := growHint h cr.next h, held := cr.held, eof := false } rest rfl
            (Nat.lt_of_lt_of_le hi.pos (growHint_ge _ _ _))
            (fun hh => hr.none_empty he hh)
            (fun k hk => by
              have := hr.held_le k hk
              have h2 := growHint_ge h cr.next h
              simp only at this ⊢
              omega)
        simp only [e1]
        simp only at e2 e4
        have htot : Reader.total ⟨cr', chunk'⟩ = rest ++ cr.stream.data := e2
        -- `wholeStep` agrees on both totals
        have hstep1 : (wholeStep dec (rest ++ cr.stream.data)).1
            = (wholeStep dec (chunk ++ cr.stream.data)).1 := by
          have := h1 1
          simp [wholeN] at this
          exact this.symm
        have hstep2 : ∀ n, wholeN dec n (wholeStep dec (rest ++ cr.stream.data)).2
            = wholeN dec n (wholeStep dec (chunk ++ cr.stream.data)).2 := by
          intro n
          have := h1 (n + 1)
          simp [wholeN] at this
          exact this.2.symm
        by_cases hemp : chunk'.isEmpty
        · have hc : chunk' = [] := by simpa using hemp
          subst hc
          simp only [List.isEmpty_nil, if_true]
          -- the chunk is empty only at the end
          have hdone : cr'.stream.data = [] := by
            by_cases hee : cr'.eof = true
            · exact e3.eof_done hee
            · have hee : cr'.eof = false := by simpa using hee
              have := e4 hee
              simp only [List.nil_append] at e2
              rw [e2] at this
              simp at this
              omega
          have hz : rest ++ cr.stream.data = [] := by
            rw [← htot]; simp [Reader.total, hdone]
          have hw : wholeStep dec [] = (.ok none, []) := by
            obtain ⟨hh, hhe⟩ := L.empty false
            simp [wholeStep, hhe]
          refine ⟨?_, e3, ?_, ?_⟩
          · simp only [Reader.total]
            rw [← hstep1, hz, hw]
          · rw [htot, hz]; exact L.good_nil
          · intro n
            rw [htot]
            show wholeN dec n (wholeStep dec (chunk ++ cr.stream.data)).2 = _
            rw [← hstep2, hz, hw]
        · simp only [hemp, if_false, Bool.false_eq_true]
          have := ih ⟨cr', chunk'⟩ e3 (by rw [htot]; exact h2) (by
            simp only [Reader.need] at hn ⊢
            simp only [he] at hn
            by_cases hee : cr'.eof = true
            · simp [hee]; simp at hn; omega
            · have hee : cr'.eof = false := by simpa using hee
              have := e4 hee
              simp [hee]; simp at hn; omega)
          obtain ⟨a1, a2, a3, a4⟩ := this
          refine ⟨?_, a2, a3, ?_⟩
          · rw [a1, htot]
            exact hstep1
          · intro n
            rw [← a4 n, htot]
            exact (hstep2 n).symm

/-- **Chunking is invisible.**  Any number of reads through any chunking give the outcomes of decoding
the whole contents. -/
theorem readN_eq_wholeN {ρ : Type} {dec : Bytes → Bool → Dec ρ} {Good : Bytes → Prop}
    (L : Laws dec Good) :
    ∀ (n : Nat) (st : Reader), st.Inv → Good st.total →
      st.readN dec n = wholeN dec n st.total := by
  intro n
  induction n with
  | zero => intro st _ _; rfl
  | succ n ih =>
    intro st hi hg
    obtain ⟨h1, h2, h3, h4⟩ := readCore_spec L (st.cr.stream.data.length + 2) st hi hg (by
      simp only [Reader.need]; split <;> omega)
    simp only [Reader.readN, Reader.read, wholeN]
    rw [ih _ h2 h3, h1, h4 n]

/-- The same for a zero-copy source. -/
theorem memReadN_eq_wholeN {ρ : Type} {dec : Bytes → Bool → Dec ρ}
    (hempty : ∀ ig, ∃ h, dec [] ig = .more [] h) (hub : ∀ s ig w, dec s ig ≠ .ub w) :
    ∀ (n : Nat) (data : Bytes),
      MemReader.readN dec n ⟨data, []⟩ = wholeN dec n data := by
  have hnil : wholeStep dec [] = (.ok none, []) := by
    obtain ⟨h, hh⟩ := hempty false
    simp [wholeStep, hh]
  have loaded : ∀ (n : Nat) (x : Bytes), MemReader.readN dec n ⟨[], x⟩ = wholeN dec n x := by
    intro n
    induction n with
    | zero => intro x; rfl
    | succ n ih =>
      intro x
      simp only [MemReader.readN, MemReader.read, wholeN, MemReader.readCore, List.isEmpty_nil,
        Bool.not_true]
      cases hd : dec x false with
      | got r rest => simp [wholeStep, hd, ih]
      | fail e rest => simp [wholeStep, hd, ih]
      | ub w => exact absurd hd (hub _ _ _)
      | more rest h => simp [wholeStep, hd, ih]
  intro n data
  cases hdata : data with
  | nil => exact loaded n []
  | cons b bs =>
    cases n with
    | zero => rfl
    | succ n =>
      obtain ⟨h, hh⟩ := hempty true
      simp only [MemReader.readN, MemReader.read, wholeN, MemReader.readCore, List.isEmpty_cons,
        Bool.not_false, hh, List.isEmpty_nil, Bool.not_true]
      cases hd : dec (b :: bs) false with
      | got r rest => simp [wholeStep, hd, loaded]
      | fail e rest => simp [wholeStep, hd, loaded]
      | ub w => exact absurd hd (hub _ _ _)
      | more rest h => simp [wholeStep, hd, loaded]

end Mlio
