import Verif.Spec.CsvDecode
import Verif.Proofs.Tokenizer

namespace Mlio

open Spec

variable {V : Type}

/-! ## One row -/

/-- Outcome and writes of a row, from its fields. -/
structure RowSum (V : Type) where
  writes : List (Nat × V)
  out : Res Bool
  reported : Option Nat

def RowRun.sum (r : RowRun V) : RowSum V := ⟨r.writes, r.out, r.reported⟩

def fieldsEnd (cfg : RowCfg) (o : Res Unit) (cols : List (CsvCol V)) (idx : Nat) : RowSum V :=
  match o with
  | .err e => ⟨[], .err e, none⟩
  | .ub w => ⟨[], .ub w, none⟩
  | .ok () =>
    if cols.isEmpty then ⟨[], .ok true, none⟩
    else ⟨[], badRow cfg, if cfg.warnBad || cfg.errorBad then some idx else none⟩

def fieldsMore (V : Type) (cfg : RowCfg) (o : Res Unit) (n : Nat) : RowSum V :=
  if cfg.warnBad || cfg.errorBad then
    match o with
    | .err e => ⟨[], .err e, none⟩
    | .ub w => ⟨[], .ub w, none⟩
    | .ok () => ⟨[], badRow cfg, some n⟩
  else ⟨[], .ok false, none⟩

def decodeFields (cfg : RowCfg) (o : Res Unit) :
    List (CsvCol V) → List (Bytes × Bool) → (idx tsr : Nat) → RowSum V
  | cols, [], idx, _ => fieldsEnd cfg o cols idx
  | [], _ :: fs, idx, _ => fieldsMore V cfg o (idx + 1 + fs.length)
  | c :: cs, f :: fs, idx, tsr =>
    if c.ignore then decodeFields cfg o cs fs (idx + 1) tsr
    else if f.2 && cfg.limit == .treatAsBad then ⟨[], badRow cfg, none⟩
    else
      match c.parse f.1 with
      | some v =>
        let r := decodeFields cfg o cs fs (idx + 1) (tsr + 1)
        ⟨(tsr, v) :: r.writes, r.out, r.reported⟩
      | none => ⟨[], badRow cfg, none⟩

theorem countRest_drain (p : TokParams) : ∀ (f : Nat) (t : Tok),
    (countRest p f t).1 =
      (match Tok.drain p f t with
        | (vs, .ok ()) => .ok vs.length
        | (_, .err e) => .err e
        | (_, .ub w) => .ub w) := by
  intro f
  induction f with
  | zero => intro t; rfl
  | succ f ih =>
    intro t
    simp only [countRest, Tok.drain]
    rcases t.next p with ⟨b | e | w, t'⟩
    · cases b with
      | false => rfl
      | true =>
        have := ih t'
        simp only
        revert this
        rcases countRest p f t' with ⟨n | e | w, t''⟩ <;>
          rcases Tok.drain p f t' with ⟨vs, ⟨⟩ | e' | w'⟩ <;> simp
    · rfl
    · rfl

theorem next_false (p : TokParams) (t t' : Tok) (h : t.next p = (.ok false, t')) :
    t'.eof = true ∧ t'.finished = true := by
  simp only [Tok.next] at h
  split at h
  · rename_i hf
    simp only [Prod.mk.injEq, true_and] at h
    subst h
    exact ⟨rfl, hf⟩
  · split at h
    · simp at h
    · split at h <;> simp at h

theorem next_true_eof (p : TokParams) (t t' : Tok) (h : t.next p = (.ok true, t')) : t'.eof = t.eof := by
  simp only [Tok.next] at h
  split at h
  · simp at h
  · split at h
    · simp only [Prod.mk.injEq, true_and] at h
      subst h; rfl
    · split at h
      · simp at h
      · simp only [Prod.mk.injEq, true_and] at h
        subst h; rfl

/-- More fuel than needed does not matter. -/
theorem drain_mono (p : TokParams) : ∀ (f : Nat) (t : Tok), (Tok.drain p f t).2 ≠ .err .diverges →
    Tok.drain p (f + 1) t = Tok.drain p f t := by
  intro f
  induction f with
  | zero => intro t h; exact absurd rfl h
  | succ f ih =>
    intro t h
    rw [Tok.drain]
    rw [Tok.drain] at h ⊢
    rcases hn : t.next p with ⟨b | e | w, t'⟩
    · cases b with
      | false => rfl
      | true =>
        rw [hn] at h
        simp only at h ⊢
        rw [ih t' h]
    · rfl
    · rfl

theorem decodeLoop_sum (cfg : RowCfg) : ∀ (f : Nat) (t : Tok) (cols : List (CsvCol V)) (idx tsr : Nat),
    t.eof = false → (Tok.drain cfg.tok f t).2 ≠ .err .diverges →
    (decodeLoop cfg f t cols idx tsr).sum =
      decodeFields cfg (Tok.drain cfg.tok f t).2 cols (Tok.drain cfg.tok f t).1 idx tsr := by
  intro f
  induction f with
  | zero => intro t cols idx tsr _ h; exact absurd rfl h
  | succ f ih =>
    intro t cols idx tsr heof hd
    rw [decodeLoop]
    rw [Tok.drain] at hd ⊢
    rcases hn : t.next cfg.tok with ⟨b | e | w, t'⟩
    · cases b with
      | false =>
        obtain ⟨h1, h2⟩ := next_false _ _ _ hn
        have hdr : Tok.drain cfg.tok (f + 1) t' = ([], .ok ()) := drain_finished _ _ _ h2
        have hc := countRest_drain cfg.tok (f + 1) t'
        rw [hdr] at hc
        simp only at hc ⊢
        cases cols with
        | nil => simp [endRow, h1, decodeFields, fieldsEnd, RowRun.sum]
        | cons c cs =>
          rcases hcr : countRest cfg.tok (f + 1) t' with ⟨n, t''⟩
          rw [hcr] at hc
          simp only at hc
          subst hc
          simp only [endRow, decodeFields, fieldsEnd, fieldsMore, List.isEmpty_cons, Bool.false_and, Bool.false_eq_true, if_false,
            hcr]
          by_cases hw : (cfg.warnBad || cfg.errorBad) = true
          · simp [hw, RowRun.sum]
          · simp only [Bool.or_eq_true, not_or, Bool.not_eq_true] at hw
            simp [hw, RowRun.sum, badRow]
      | true =>
        rw [hn] at hd
        simp only at hd ⊢
        have heof' : t'.eof = false := by rw [next_true_eof _ _ _ hn]; exact heof
        cases cols with
        | nil =>
          have hc := countRest_drain cfg.tok (f + 1) t'
          rw [drain_mono cfg.tok f t' hd] at hc
          rcases hcr : countRest cfg.tok (f + 1) t' with ⟨n, t''⟩
          rw [hcr] at hc
          simp only at hc
          simp only [endRow, decodeFields, fieldsEnd, fieldsMore, List.isEmpty_nil, Bool.true_and, heof', Bool.false_eq_true,
            if_false, hcr]
          by_cases hw : (cfg.warnBad || cfg.errorBad) = true
          · simp only [hw, if_true]
            rw [hc]
            rcases Tok.drain cfg.tok f t' with ⟨vs, ⟨⟩ | e' | w'⟩
            · simp [RowRun.sum]; omega
            · simp [RowRun.sum]
            · simp [RowRun.sum]
          · simp [hw, RowRun.sum]
        | cons c cs =>
          simp only [decodeFields, fieldsEnd, fieldsMore]
          by_cases hi : c.ignore = true
          · simp only [hi, if_true]
            exact ih t' cs (idx + 1) tsr heof' hd
          · simp only [hi, Bool.false_eq_true, if_false]
            by_cases ht : (t'.truncated && cfg.limit == .treatAsBad) = true
            · simp [ht, RowRun.sum]
            · simp only [ht, Bool.false_eq_true, if_false]
              cases hp : c.parse t'.value with
              | none => simp [RowRun.sum]
              | some v =>
                have := ih t' cs (idx + 1) (tsr + 1) heof' hd
                rw [← this]
                rfl
    · simp [decodeFields, fieldsEnd, RowRun.sum]
    · simp [decodeFields, fieldsEnd, RowRun.sum]

theorem tokenize_not_diverges (p : TokParams) (row : Bytes) : (tokenize p row).2 ≠ .err .diverges := by
  induction hn : row.length using Nat.strongRecOn generalizing row with
  | _ n ih =>
    rw [tokenize_eq, fieldsFrom]
    split
    · rename_i v' rest hs
      have := tokScan_rest_lt _ _ _ _ _ _ hs
      exact ih rest.length (by omega) rest rfl
    · simp
    · simp

theorem tokenize_no_ub (p : TokParams) (row : Bytes) (w : String) : (tokenize p row).2 ≠ .ub w := by
  induction hn : row.length using Nat.strongRecOn generalizing row with
  | _ n ih =>
    rw [tokenize_eq, fieldsFrom]
    split
    · rename_i v' rest hs
      have := tokScan_rest_lt _ _ _ _ _ _ hs
      exact ih rest.length (by omega) rest rfl
    · simp
    · simp

theorem tokenize_err (p : TokParams) (row : Bytes) (e : Err) (h : (tokenize p row).2 = .err e) :
    e = .corruptRecord := by
  induction hn : row.length using Nat.strongRecOn generalizing row with
  | _ n ih =>
    rw [tokenize_eq, fieldsFrom] at h
    split at h
    · rename_i v' rest hs
      have := tokScan_rest_lt _ _ _ _ _ _ hs
      exact ih rest.length (by omega) rest h rfl
    · simpa using h.symm
    · simp at h

/-- `Decoder::decode` does what its fields say; what the tokenizer was used for before does not matter. -/
theorem decodeRow_sum (cfg : RowCfg) (cols : List (CsvCol V)) (t : Tok) (row : Bytes) :
    (decodeRow cfg cols t row).sum =
      decodeFields cfg (tokenize cfg.tok row).2 cols (tokenize cfg.tok row).1 0 0 := by
  have hd : Tok.drain cfg.tok (row.length + 2) (t.reset row) = tokenize cfg.tok row :=
    drain_congr _ _ _ _ rfl rfl
  rw [decodeRow, decodeLoop_sum cfg _ _ _ _ _ rfl (by rw [hd]; exact tokenize_not_diverges _ _), hd]

theorem wellFormed_cons (limit : FieldLimit) (c : CsvCol V) (cs : List (CsvCol V)) (f : Bytes × Bool)
    (fs : List (Bytes × Bool)) :
    WellFormed limit (c :: cs) (f :: fs) ↔ fieldOk limit c f ∧ WellFormed limit cs fs := by
  simp only [WellFormed, List.length_cons, Nat.add_right_cancel_iff, List.zip_cons_cons, List.forall_mem_cons]
  constructor
  · rintro ⟨h1, h2, h3⟩; exact ⟨h2, h1, h3⟩
  · rintro ⟨h2, h1, h3⟩; exact ⟨h1, h2, h3⟩

theorem badRow_ne (cfg : RowCfg) : badRow cfg ≠ .ok true := by
  unfold badRow; split <;> simp

theorem decodeFields_accept (cfg : RowCfg) (o : Res Unit) (cols : List (CsvCol V)) (fs : List (Bytes × Bool))
    (idx tsr : Nat) :
    (decodeFields cfg o cols fs idx tsr).out = .ok true ↔ o = .ok () ∧ WellFormed cfg.limit cols fs := by
  induction fs generalizing cols idx tsr with
  | nil =>
    simp only [decodeFields, fieldsEnd, fieldsMore]
    rcases o with ⟨⟩ | e | w
    · cases cols with
      | nil => simp [WellFormed]
      | cons c cs => simp [WellFormed, badRow_ne]
    · simp
    · simp
  | cons f fs ih =>
    cases cols with
    | nil =>
      have : ¬ WellFormed cfg.limit ([] : List (CsvCol V)) (f :: fs) := by simp [WellFormed]
      simp only [decodeFields, fieldsMore, this, and_false, iff_false]
      split
      · rcases o with ⟨⟩ | e | w <;> simp [badRow_ne]
      · simp
    | cons c cs =>
      rw [wellFormed_cons, decodeFields]
      by_cases hi : c.ignore = true
      · simp only [hi, if_true, ih]
        simp [fieldOk, hi]
      · simp only [hi, Bool.false_eq_true, if_false]
        by_cases ht : (f.2 && cfg.limit == .treatAsBad) = true
        · rw [if_pos ht]
          simp only [badRow_ne, false_iff]
          rintro ⟨_, hf, _⟩
          rcases hf with h | ⟨_, h⟩
          · exact hi h
          · simp only [Bool.and_eq_true, beq_iff_eq] at ht
            simp [h ht.2] at ht
        · rw [if_neg ht]
          cases hp : c.parse f.1 with
          | none =>
            simp only [badRow_ne, false_iff]
            rintro ⟨_, hf, _⟩
            rcases hf with h | ⟨h, _⟩
            · exact hi h
            · simp [hp] at h
          | some v =>
            simp only [ih]
            have : fieldOk cfg.limit c f := by
              right
              refine ⟨by simp [hp], fun hl => ?_⟩
              simpa [hl] using ht
            simp [this]

theorem decodeFields_writes (cfg : RowCfg) (o : Res Unit) (cols : List (CsvCol V)) (fs : List (Bytes × Bool))
    (idx tsr : Nat) (h : (decodeFields cfg o cols fs idx tsr).out = .ok true) :
    (decodeFields cfg o cols fs idx tsr).writes = ((usedValues cols fs).zipIdx tsr).map fun x => (x.2, x.1) := by
  induction fs generalizing cols idx tsr with
  | nil =>
    simp only [decodeFields, fieldsEnd, fieldsMore] at h ⊢
    rcases o with ⟨⟩ | e | w
    · cases cols <;> simp [usedValues]
    · simp [usedValues]
    · simp [usedValues]
  | cons f fs ih =>
    cases cols with
    | nil =>
      simp only [decodeFields, fieldsEnd, fieldsMore] at h ⊢
      split
      · rcases o with ⟨⟩ | e | w <;> simp [usedValues]
      · simp [usedValues]
    | cons c cs =>
      rw [decodeFields] at h ⊢
      by_cases hi : c.ignore = true
      · simp only [hi, if_true] at h ⊢
        rw [ih _ _ _ h]
        simp [usedValues, hi]
      · simp only [hi, Bool.false_eq_true, if_false] at h ⊢
        by_cases ht : (f.2 && cfg.limit == .treatAsBad) = true
        · rw [if_pos ht] at h
          exact absurd h (badRow_ne cfg)
        · rw [if_neg ht] at h ⊢
          cases hp : c.parse f.1 with
          | none => rw [hp] at h; exact absurd h (badRow_ne cfg)
          | some v =>
            rw [hp] at h
            simp only at h ⊢
            rw [ih _ _ _ h]
            simp [usedValues, hi, hp]

theorem decodeFields_reported (cfg : RowCfg) (cols : List (CsvCol V)) (fs : List (Bytes × Bool))
    (idx tsr n : Nat) (h : (decodeFields cfg (.ok ()) cols fs idx tsr).reported = some n) :
    n = idx + fs.length ∧ fs.length ≠ cols.length := by
  induction fs generalizing cols idx tsr with
  | nil =>
    simp only [decodeFields, fieldsEnd, fieldsMore] at h
    split at h
    · simp at h
    · rename_i hc
      split at h
      · simp only [Option.some.injEq] at h
        subst h
        refine ⟨rfl, ?_⟩
        cases cols with
        | nil => simp at hc
        | cons => simp
      · simp at h
  | cons f fs ih =>
    cases cols with
    | nil =>
      simp only [decodeFields, fieldsEnd, fieldsMore] at h
      split at h
      · simp only [Option.some.injEq] at h
        subst h
        simp; omega
      · simp at h
    | cons c cs =>
      rw [decodeFields] at h
      have key : ∀ tsr', (decodeFields cfg (.ok ()) cs fs (idx + 1) tsr').reported = some n →
          n = idx + (f :: fs).length ∧ (f :: fs).length ≠ (c :: cs).length := by
        intro tsr' h
        obtain ⟨h1, h2⟩ := ih _ _ _ h
        simp; omega
      split at h
      · exact key _ h
      · split at h
        · simp at h
        · split at h
          · exact key _ h
          · simp at h

/-- A row with the wrong number of fields whose fields are otherwise good is reported. -/
theorem decodeFields_reports (cfg : RowCfg) (hw : (cfg.warnBad || cfg.errorBad) = true)
    (cols : List (CsvCol V)) (fs : List (Bytes × Bool)) (idx tsr : Nat) (hl : fs.length ≠ cols.length)
    (hok : ∀ x ∈ cols.zip fs, fieldOk cfg.limit x.1 x.2) :
    (decodeFields cfg (.ok ()) cols fs idx tsr).reported = some (idx + fs.length) := by
  induction fs generalizing cols idx tsr with
  | nil =>
    cases cols with
    | nil => simp at hl
    | cons c cs => simp [decodeFields, fieldsEnd, fieldsMore, hw]
  | cons f fs ih =>
    cases cols with
    | nil => simp [decodeFields, fieldsEnd, fieldsMore, hw]; omega
    | cons c cs =>
      rw [List.zip_cons_cons, List.forall_mem_cons] at hok
      obtain ⟨h0, hok'⟩ := hok
      have hl' : fs.length ≠ cs.length := by simpa using hl
      rw [decodeFields]
      by_cases hi : c.ignore = true
      · simp only [hi, if_true]
        rw [ih _ _ _ hl' hok']
        simp; omega
      · simp only [hi, Bool.false_eq_true, if_false]
        rcases h0 with h | ⟨hp, ht⟩
        · exact absurd h hi
        · have : (f.2 && cfg.limit == .treatAsBad) = false := by
            rw [Bool.and_eq_false_iff]
            by_cases hh : cfg.limit = .treatAsBad
            · exact Or.inl (ht hh)
            · right; simpa using hh
          rw [this]
          simp only [Bool.false_eq_true, if_false]
          cases hpv : c.parse f.1 with
          | none => simp [hpv] at hp
          | some v =>
            simp only
            rw [ih _ _ _ hl' hok']
            simp; omega

/-- Outcomes of a row whose fields can be told apart. -/
theorem decodeFields_out (cfg : RowCfg) (cols : List (CsvCol V)) (fs : List (Bytes × Bool)) (idx tsr : Nat) :
    (decodeFields cfg (.ok ()) cols fs idx tsr).out = .ok true ∨
    (decodeFields cfg (.ok ()) cols fs idx tsr).out = badRow cfg := by
  induction fs generalizing cols idx tsr with
  | nil =>
    simp only [decodeFields, fieldsEnd, fieldsMore]
    split
    · exact Or.inl rfl
    · exact Or.inr rfl
  | cons f fs ih =>
    cases cols with
    | nil =>
      simp only [decodeFields, fieldsEnd, fieldsMore]
      split
      · exact Or.inr rfl
      · rename_i h
        simp only [Bool.or_eq_true, not_or, Bool.not_eq_true] at h
        exact Or.inr (by simp [badRow, h])
    | cons c cs =>
      rw [decodeFields]
      split
      · exact ih _ _ _
      · split
        · exact Or.inr rfl
        · split
          · exact ih _ _ _
          · exact Or.inr rfl

end Mlio
