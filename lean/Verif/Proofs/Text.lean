import Verif.Model.Text
import Verif.Proofs.StreamReader

/-! Lemmas about line scanning and the text record readers. -/

namespace Mlio

/-- No line terminator character. -/
def NoNl (b : Bytes) : Prop := ∀ c ∈ b, c ≠ LF ∧ c ≠ CR

theorem NoNl.nil : NoNl [] := by simp [NoNl]

theorem NoNl.cons {c : UInt8} {b : Bytes} (h1 : c ≠ LF) (h2 : c ≠ CR) (hb : NoNl b) :
    NoNl (c :: b) := by
  intro x hx
  rcases List.mem_cons.1 hx with rfl | hx
  · exact ⟨h1, h2⟩
  · exact hb x hx

/-- How a byte string starts: with a line that is not terminated, or with a terminated line. -/
inductive LineForm : Bytes → Prop where
  | open_ (b : Bytes) (h : NoNl b) : LineForm b
  | lf (b t : Bytes) (h : NoNl b) : LineForm (b ++ LF :: t)
  | crlf (b t : Bytes) (h : NoNl b) : LineForm (b ++ CR :: LF :: t)
  | cr (b t : Bytes) (h : NoNl b) (ht : t.head? ≠ some LF) : LineForm (b ++ CR :: t)

theorem lineForm (s : Bytes) : LineForm s := by
  induction s with
  | nil => exact .open_ [] .nil
  | cons c s ih =>
    by_cases h1 : c = LF
    · subst h1; exact .lf [] s .nil
    · by_cases h2 : c = CR
      · subst h2
        cases s with
        | nil => exact .cr [] [] .nil (by simp)
        | cons d s =>
          by_cases h3 : d = LF
          · subst h3; exact .crlf [] s .nil
          · exact .cr [] (d :: s) .nil (by simpa using h3)
      · cases ih with
        | open_ b h => exact .open_ _ (.cons h1 h2 h)
        | lf b t h => exact .lf (c :: b) t (.cons h1 h2 h)
        | crlf b t h => exact .crlf (c :: b) t (.cons h1 h2 h)
        | cr b t h ht => exact .cr (c :: b) t (.cons h1 h2 h) ht

theorem scanLine_body (b : Bytes) (h : NoNl b) (k : Nat) (t : Bytes) :
    scanLine k (b ++ t) = scanLine (k + b.length) t := by
  induction b generalizing k with
  | nil => simp
  | cons c b ih =>
    have hc := h c (by simp)
    have hb : NoNl b := fun x hx => h x (by simp [hx])
    simp only [List.cons_append, scanLine, hc.1, hc.2, if_false]
    rw [ih hb]
    simp only [List.length_cons]
    congr 1; omega

theorem scanLine_open (b : Bytes) (h : NoNl b) : scanLine 0 b = ⟨b.length, false, true⟩ := by
  have := scanLine_body b h 0 []
  simpa [scanLine] using this

theorem scanLine_lf (b t : Bytes) (h : NoNl b) :
    scanLine 0 (b ++ LF :: t) = ⟨b.length, false, false⟩ := by
  rw [scanLine_body b h]; simp [scanLine]

theorem scanLine_crlf (b t : Bytes) (h : NoNl b) :
    scanLine 0 (b ++ CR :: LF :: t) = ⟨b.length + 1, true, false⟩ := by
  rw [scanLine_body b h]; simp [scanLine, show ¬ (CR = LF) by decide]

theorem scanLine_cr (b t : Bytes) (h : NoNl b) (ht : t.head? ≠ some LF) :
    scanLine 0 (b ++ CR :: t) = ⟨b.length, false, false⟩ := by
  rw [scanLine_body b h]
  cases t with
  | nil => simp [scanLine]
  | cons d t => simp at ht; simp [scanLine, ht]

theorem readLine_max (c : Bytes) (ig : Bool) (m : Option Nat) (hne : c ≠ []) :
    readLine c ig m =
      let sc := scanLine 0 c
      if tooLong m sc.pos then .fail .recordTooLarge c
      else if sc.atEnd && ig then .more c 0
      else
        match sliceFirst c (if sc.carriage then sc.pos - 1 else sc.pos) with
        | .err e => .fail e c
        | .ub w => .ub w
        | .ok payload =>
          if sc.atEnd then .got ⟨0, payload⟩ []
          else
            match subsliceFrom c (sc.pos + 1) with
            | .err e => .fail e c
            | .ub w => .ub w
            | .ok rest => .got ⟨0, payload⟩ rest := by
  have : c.isEmpty = false := by cases c <;> simp_all
  simp only [readLine, this, tooLong]
  rfl

theorem readLine_open (b : Bytes) (h : NoNl b) (hne : b ≠ []) (ig : Bool) (m : Option Nat) :
    readLine b ig m = if tooLong m b.length then .fail .recordTooLarge b
      else if ig then .more b 0 else .got ⟨0, b⟩ [] := by
  rw [readLine_max _ _ _ hne, scanLine_open b h]
  cases ig <;> simp [sliceFirst]

theorem readLine_lf (b t : Bytes) (h : NoNl b) (ig : Bool) (m : Option Nat) :
    readLine (b ++ LF :: t) ig m = if tooLong m b.length then .fail .recordTooLarge (b ++ LF :: t)
      else .got ⟨0, b⟩ t := by
  rw [readLine_max _ _ _ (by simp), scanLine_lf b t h]
  cases ig <;> simp [sliceFirst, subsliceFrom, ← List.drop_drop]

theorem readLine_crlf (b t : Bytes) (h : NoNl b) (ig : Bool) (m : Option Nat) :
    readLine (b ++ CR :: LF :: t) ig m =
      if tooLong m (b.length + 1) then .fail .recordTooLarge (b ++ CR :: LF :: t)
      else .got ⟨0, b⟩ t := by
  rw [readLine_max _ _ _ (by simp), scanLine_crlf b t h]
  have e1 : sliceFirst (b ++ CR :: LF :: t) b.length = .ok b := by simp [sliceFirst]
  have e2 : subsliceFrom (b ++ CR :: LF :: t) (b.length + 1 + 1) = .ok t := by
    have : b.length + 1 + 1 ≤ (b ++ CR :: LF :: t).length := by simp; omega
    rw [subsliceFrom, if_pos this, ← List.drop_drop, ← List.drop_drop]; simp
  cases ig <;> simp [e1, e2]

theorem readLine_cr (b t : Bytes) (h : NoNl b) (ht : t.head? ≠ some LF) (ig : Bool) (m : Option Nat) :
    readLine (b ++ CR :: t) ig m = if tooLong m b.length then .fail .recordTooLarge (b ++ CR :: t)
      else .got ⟨0, b⟩ t := by
  rw [readLine_max _ _ _ (by simp), scanLine_cr b t h ht]
  cases ig <;> simp [sliceFirst, subsliceFrom, ← List.drop_drop]

theorem tooLong_mono (m : Option Nat) {a b : Nat} (h : a ≤ b) (ha : tooLong m a = true) :
    tooLong m b = true := by
  cases m with
  | none => simp [tooLong] at ha
  | some m => simp [tooLong] at ha ⊢; omega

/-- Shape of the results of `readLine`. -/
theorem readLine_noub (c : Bytes) (ig : Bool) (m : Option Nat) (w : String) :
    readLine c ig m ≠ .ub w := by
  by_cases hne : c = []
  · subst hne; simp only [readLine]; cases ig <;> simp
  · cases lineForm c with
    | open_ b h => rw [readLine_open _ h hne]; split <;> (try split) <;> simp
    | lf b t h => rw [readLine_lf _ _ h]; split <;> simp
    | crlf b t h => rw [readLine_crlf _ _ h]; split <;> simp
    | cr b t h ht => rw [readLine_cr _ _ h ht]; split <;> simp

theorem readLine_got_suffix (c : Bytes) (ig : Bool) (m : Option Nat) (r : Record) (rest : Bytes)
    (h : readLine c ig m = .got r rest) : rest <:+ c ∧ rest.length < c.length := by
  have hne : c ≠ [] := by
    rintro rfl
    simp only [readLine] at h
    cases ig <;> simp at h
  cases lineForm c with
  | open_ _ hb =>
    rw [readLine_open _ hb hne] at h
    split at h
    · simp at h
    · split at h
      · simp at h
      · injection h with _ h2
        subst h2
        refine ⟨List.nil_suffix, ?_⟩
        cases c <;> simp_all
  | lf b t hb =>
    rw [readLine_lf _ _ hb] at h
    split at h
    · simp at h
    · injection h with _ h2
      subst h2
      exact ⟨⟨b ++ [LF], by simp⟩, by simp; omega⟩
  | crlf b t hb =>
    rw [readLine_crlf _ _ hb] at h
    split at h
    · simp at h
    · injection h with _ h2
      subst h2
      exact ⟨⟨b ++ [CR, LF], by simp⟩, by simp; omega⟩
  | cr b t hb ht =>
    rw [readLine_cr _ _ hb ht] at h
    split at h
    · simp at h
    · injection h with _ h2
      subst h2
      exact ⟨⟨b ++ [CR], by simp⟩, by simp; omega⟩

theorem readLine_more_eq (c : Bytes) (ig : Bool) (m : Option Nat) (rest : Bytes) (k : Nat)
    (h : readLine c ig m = .more rest k) : rest = c ∧ k = 0 ∧ ig = true := by
  by_cases hne : c = []
  · subst hne
    simp only [readLine] at h
    cases ig <;> simp at h
    exact ⟨h.1, h.2.symm, rfl⟩
  · cases lineForm c with
    | open_ _ hb =>
      rw [readLine_open _ hb hne] at h
      split at h
      · simp at h
      · cases ig <;> simp at h
        exact ⟨h.1.symm, h.2.symm, rfl⟩
    | lf b t hb => rw [readLine_lf _ _ hb] at h; split at h <;> simp at h
    | crlf b t hb => rw [readLine_crlf _ _ hb] at h; split at h <;> simp at h
    | cr b t hb ht => rw [readLine_cr _ _ hb ht] at h; split at h <;> simp at h

theorem readLine_fail_eq (c : Bytes) (ig : Bool) (m : Option Nat) (rest : Bytes) (e : Err)
    (h : readLine c ig m = .fail e rest) : rest = c := by
  by_cases hne : c = []
  · subst hne
    simp only [readLine] at h
    cases ig <;> simp at h
    exact h.2
  · cases lineForm c with
    | open_ _ hb =>
      rw [readLine_open _ hb hne] at h
      split at h
      · injection h with _ h2; exact h2.symm
      · cases ig <;> simp at h
    | lf b t hb =>
      rw [readLine_lf _ _ hb] at h
      split at h
      · injection h with _ h2; exact h2.symm
      · simp at h
    | crlf b t hb =>
      rw [readLine_crlf _ _ hb] at h
      split at h
      · injection h with _ h2; exact h2.symm
      · simp at h
    | cr b t hb ht =>
      rw [readLine_cr _ _ hb ht] at h
      split at h
      · injection h with _ h2; exact h2.symm
      · simp at h

/-- Appending text behind a decoded line: the same line, unless the text ended in CR and an LF follows. -/
theorem readLine_got_append (s t : Bytes) (ig' : Bool) (m : Option Nat) (r : Record) (rest : Bytes)
    (h : readLine s true m = .got r rest) :
    readLine (s ++ t) ig' m = .got r (rest ++ t) ∨
    (rest = [] ∧ ∃ b t', s = b ++ [CR] ∧ t = LF :: t' ∧ (m = none → readLine (s ++ t) ig' m = .got r t')) := by
  have hne : s ≠ [] := by
    rintro rfl
    simp [readLine] at h
  cases lineForm s with
  | open_ _ hb =>
    rw [readLine_open _ hb hne] at h
    split at h <;> simp at h
  | lf b u hb =>
    rw [readLine_lf _ _ hb] at h
    split at h
    · simp at h
    · rename_i hm
      injection h with h1 h2
      subst h1 h2
      left
      rw [List.append_assoc, List.cons_append, readLine_lf _ _ hb, if_neg hm]
  | crlf b u hb =>
    rw [readLine_crlf _ _ hb] at h
    split at h
    · simp at h
    · rename_i hm
      injection h with h1 h2
      subst h1 h2
      left
      rw [List.append_assoc, List.cons_append, List.cons_append, readLine_crlf _ _ hb, if_neg hm]
  | cr b u hb hu =>
    rw [readLine_cr _ _ hb hu] at h
    split at h
    · simp at h
    · rename_i hm
      injection h with h1 h2
      subst h1 h2
      by_cases hh : (u ++ t).head? = some LF
      · right
        cases u with
        | cons c u => simp at hh hu; exact absurd hh hu
        | nil =>
          cases t with
          | nil => simp at hh
          | cons d t =>
            simp at hh
            subst hh
            refine ⟨rfl, b, t, rfl, rfl, ?_⟩
            intro hm'
            subst hm'
            rw [List.append_assoc, List.singleton_append, readLine_crlf _ _ hb]
            simp [tooLong]
      · left
        rw [List.append_assoc, List.cons_append, readLine_cr _ _ hb hh, if_neg hm]

theorem readLine_fail_append (s t : Bytes) (ig' : Bool) (m : Option Nat) (e : Err) (rest : Bytes)
    (h : readLine s true m = .fail e rest) :
    readLine (s ++ t) ig' m = .fail e (s ++ t) := by
  have hne : s ≠ [] := by
    rintro rfl
    simp [readLine] at h
  cases lineForm s with
  | open_ _ hb =>
    rw [readLine_open _ hb hne] at h
    split at h
    · rename_i hm
      injection h with h1 h2
      subst h1
      -- whatever follows, the line only gets longer
      rw [readLine_max _ _ _ (by simp [hne]), scanLine_body s hb]
      have hpos : ∀ (k : Nat) (x : Bytes), k ≤ (scanLine k x).pos := by
        intro k x
        induction x generalizing k with
        | nil => simp [scanLine]
        | cons c x ih =>
          simp only [scanLine]
          split
          · simp
          · split
            · split
              · split <;> simp
              · simp
            · have := ih (k + 1); omega
      rw [Nat.zero_add]
      simp only [tooLong_mono m (hpos s.length t) hm, if_true]
    · simp at h
  | lf b u hb =>
    rw [readLine_lf _ _ hb] at h
    split at h
    · rename_i hm
      injection h with h1 h2
      subst h1
      rw [List.append_assoc, List.cons_append, readLine_lf _ _ hb, if_pos hm]
    · simp at h
  | crlf b u hb =>
    rw [readLine_crlf _ _ hb] at h
    split at h
    · rename_i hm
      injection h with h1 h2
      subst h1
      rw [List.append_assoc, List.cons_append, List.cons_append, readLine_crlf _ _ hb, if_pos hm]
    · simp at h
  | cr b u hb hu =>
    rw [readLine_cr _ _ hb hu] at h
    split at h
    · rename_i hm
      injection h with h1 h2
      subst h1
      by_cases hh : (u ++ t).head? = some LF
      · cases u with
        | cons c u => simp at hh hu; exact absurd hh hu
        | nil =>
          cases t with
          | nil => simp at hh
          | cons d t =>
            simp at hh
            subst hh
            rw [List.append_assoc, List.singleton_append, readLine_crlf _ _ hb,
              if_pos (tooLong_mono m (by omega) hm)]
      · rw [List.append_assoc, List.cons_append, readLine_cr _ _ hb hh, if_pos hm]
    · simp at h

/-! ## The quoted-row machine -/

/-- `qScan` on a concatenation. -/
theorem qScan_append (p : CsvParams) (s t : Bytes) (st : QState) (k : Nat) :
    qScan p st k (s ++ t) =
      match qScan p st k s with
      | .newLine pos st' => .newLine pos st'
      | .fin pos st' => qScan p st' pos t := by
  induction s generalizing st k with
  | nil => cases st <;> simp [qScan]
  | cons c s ih =>
    cases st <;> simp only [List.cons_append, qScan] <;> repeat' split <;> (try rfl)
    all_goals first | exact ih _ _ | simp_all

/-- Positions reported by the machine: every character before the end has been consumed. -/
theorem qScan_fin_pos (p : CsvParams) (s : Bytes) (st : QState) (k pos : Nat) (st' : QState)
    (h : qScan p st k s = .fin pos st') : pos = k + s.length := by
  induction s generalizing st k with
  | nil => cases st <;> simp [qScan] at h <;> simp [h]
  | cons c s ih =>
    cases st <;> simp only [qScan] at h <;> (repeat' split at h) <;>
      first
      | (have := ih _ _ h; simp; omega)
      | simp at h

theorem qScan_newLine_pos (p : CsvParams) (s : Bytes) (st : QState) (k pos : Nat) (st' : QState)
    (h : qScan p st k s = .newLine pos st') :
    pos ≤ k + s.length ∧ (st ≠ .hasCarriage → k + 1 ≤ pos) ∧ (st' = .hasCarriage → k + 1 ≤ pos) ∧
    (st ≠ .hasCarriage → st' = .hasCarriage → k + 2 ≤ pos) ∧ k ≤ pos := by
  induction s generalizing st k with
  | nil => cases st <;> simp [qScan] at h
  | cons c s ih =>
    cases st <;> simp only [qScan] at h <;> (repeat' split at h) <;>
      first
      | (have := ih _ _ h; simp at this ⊢; omega)
      | (have := ih _ _ h; simp at this ⊢; grind)
      | (injection h with h1 h2; subst h1 h2; simp; done)
      | (injection h with h1 h2; subst h1 h2; simp; omega)

end Mlio
