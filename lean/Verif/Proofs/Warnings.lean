import Verif.Spec.Warnings
import Verif.Proofs.CsvBatch
import Verif.Proofs.Batching

namespace Mlio
open Spec

variable {V : Type}

/-- `warnLoop` on fields. -/
def warnFields (cfg : RowCfg) (ncols : Nat) : List (CsvCol V) → List (Bytes × Bool) → (idx : Nat) → List RowFault
  | cols, [], idx => if cols.isEmpty then [] else if cfg.warnBad then [.columns idx ncols] else []
  | [], _ :: fs, idx => if cfg.warnBad then [.columns (idx + 1 + fs.length) ncols] else []
  | c :: cs, f :: fs, idx =>
    if c.ignore then warnFields cfg ncols cs fs (idx + 1)
    else if f.2 && cfg.limit == .treatAsBad then (if cfg.warnBad then [.tooLong idx f.1] else [])
    else
      (if f.2 && cfg.limit == .truncateWarn then [.tooLong idx f.1] else []) ++
      match c.parse f.1 with
      | some _ => warnFields cfg ncols cs fs (idx + 1)
      | none => if cfg.warnBad then [.unparsable idx f.1] else []

theorem warnLoop_fields (cfg : RowCfg) (ncols : Nat) : ∀ (f : Nat) (t : Tok) (cols : List (CsvCol V)) (idx : Nat),
    t.eof = false → (Tok.drain cfg.tok f t).2 = .ok () →
    warnLoop cfg ncols f t cols idx = warnFields cfg ncols cols (Tok.drain cfg.tok f t).1 idx := by
  intro f
  induction f with
  | zero => intro t cols idx _ h; simp [Tok.drain] at h
  | succ f ih =>
    intro t cols idx heof hd
    rw [warnLoop]
    rw [Tok.drain] at hd ⊢
    rcases hn : t.next cfg.tok with ⟨b | e | w, t'⟩
    · cases b with
      | false =>
        obtain ⟨h1, h2⟩ := next_false _ _ _ hn
        have hdr : Tok.drain cfg.tok (f + 1) t' = ([], .ok ()) := drain_finished _ _ _ h2
        have hc := countRest_drain cfg.tok (f + 1) t'
        rw [hdr] at hc
        rcases hcr : countRest cfg.tok (f + 1) t' with ⟨n, t''⟩
        rw [hcr] at hc
        simp only at hc
        subst hc
        cases cols with
        | nil => simp [endWarn, h1, warnFields]
        | cons c cs => simp [endWarn, warnFields, hcr]
      | true =>
        rw [hn] at hd
        simp only at hd ⊢
        have heof' : t'.eof = false := by rw [next_true_eof _ _ _ hn]; exact heof
        cases cols with
        | nil =>
          have hc := countRest_drain cfg.tok (f + 1) t'
          rw [drain_mono cfg.tok f t' (by rw [hd]; simp)] at hc
          rcases hcr : countRest cfg.tok (f + 1) t' with ⟨n, t''⟩
          rw [hcr] at hc
          rcases hx : Tok.drain cfg.tok f t' with ⟨vs, o⟩
          rw [hx] at hc hd
          simp only at hd
          subst hd
          simp only at hc
          subst hc
          simp only [endWarn, warnFields, hcr, heof', List.isEmpty_nil, Bool.true_and, Bool.false_eq_true, if_false]
          by_cases hw : cfg.warnBad = true
          · simp only [hw, if_true]
            simp
            omega
          · simp [hw]
        | cons c cs =>
          simp only [warnFields]
          by_cases hi : c.ignore = true
          · simp only [hi, if_true]
            exact ih t' cs (idx + 1) heof' hd
          · simp only [hi, Bool.false_eq_true, if_false]
            by_cases ht : (t'.truncated && cfg.limit == .treatAsBad) = true
            · simp [ht]
            · simp only [ht, Bool.false_eq_true, if_false]
              cases hp : c.parse t'.value with
              | none => rfl
              | some v => rw [ih t' cs (idx + 1) heof' hd]
    · rw [hn] at hd; simp at hd
    · rw [hn] at hd; simp at hd

theorem rowWarnings_fields (cfg : RowCfg) (cols : List (CsvCol V)) (t : Tok) (row : Bytes) (ht : (tokenize cfg.tok row).2 = .ok ()) :
    rowWarnings cfg cols t row = warnFields cfg cols.length cols (tokenize cfg.tok row).1 0 := by
  have hd : Tok.drain cfg.tok (row.length + 2) (t.reset row) = tokenize cfg.tok row := drain_congr _ _ _ _ rfl rfl
  rw [rowWarnings, warnLoop_fields cfg _ _ _ _ _ rfl (by rw [hd]; exact ht), hd]

/-- `rowFault` from column `idx` on, if the row is to have `ncols` fields. -/
def faultFrom (limit : FieldLimit) (ncols : Nat) (cols : List (CsvCol V)) (fs : List (Bytes × Bool)) (idx : Nat) : Option RowFault :=
  match ((cols.zip fs).zipIdx idx).find? (fun x => ¬ fieldOk limit x.1.1 x.1.2) with
  | some (x, i) => some (if x.2.2 = true ∧ limit = .treatAsBad then .tooLong i x.2.1 else .unparsable i x.2.1)
  | none => if fs.length = cols.length then none else some (.columns (idx + fs.length) ncols)

/-- `cutFields` from column `idx` on. -/
def cutsFrom (limit : FieldLimit) (cols : List (CsvCol V)) (fs : List (Bytes × Bool)) (idx : Nat) : List RowFault :=
  if limit = .truncateWarn then
    (((cols.zip fs).zipIdx idx).take ((cols.zip fs).findIdx (fun x => ¬ fieldOk limit x.1 x.2) + 1)).filterMap fun x =>
      if x.1.1.ignore = false ∧ x.1.2.2 = true then some (.tooLong x.2 x.1.2.1) else none
  else []

theorem warnFields_eq (cfg : RowCfg) (ncols : Nat) (cols : List (CsvCol V)) (fs : List (Bytes × Bool)) (idx : Nat) :
    warnFields cfg ncols cols fs idx =
      cutsFrom cfg.limit cols fs idx ++ (if cfg.warnBad then (faultFrom cfg.limit ncols cols fs idx).toList else []) := by
  induction fs generalizing cols idx with
  | nil =>
    cases cols with
    | nil => simp [warnFields, cutsFrom, faultFrom]
    | cons c cs => simp [warnFields, cutsFrom, faultFrom]
  | cons f fs ih =>
    cases cols with
    | nil =>
      simp only [warnFields, cutsFrom, faultFrom, List.zip_nil_left, List.zipIdx_nil, List.take_nil, List.filterMap_nil, List.find?_nil]
      simp
      split <;> simp
      omega
    | cons c cs =>
      have ih := ih cs (idx + 1)
      rw [warnFields, cutsFrom, faultFrom]
      rw [cutsFrom, faultFrom] at ih
      simp only [List.zip_cons_cons, List.zipIdx_cons, List.find?_cons, List.findIdx_cons, List.length_cons]
      by_cases hi : c.ignore = true
      · have hok : fieldOk cfg.limit c f := .inl hi
        simp only [hi, if_true, hok, not_true_eq_false, decide_false, cond_false]
        rw [ih]
        congr 1
        · split
          · rw [List.take_succ_cons, List.filterMap_cons]
            simp [hi]
          · rfl
        · simp only [Nat.add_right_cancel_iff, show idx + 1 + fs.length = idx + (fs.length + 1) by omega]
      · simp only [hi, Bool.false_eq_true, if_false]
        by_cases ht : (f.2 && cfg.limit == .treatAsBad) = true
        · simp only [Bool.and_eq_true, beq_iff_eq] at ht
          have hno : ¬ fieldOk cfg.limit c f := by
            rintro (h | h)
            · exact hi h
            · simp [h.2 ht.2] at ht
          obtain ⟨h1, h2⟩ := ht
          rw [h2] at hno
          simp [h1, h2, hno]
        · simp only [ht, Bool.false_eq_true, if_false]
          simp only [Bool.and_eq_true, beq_iff_eq, not_and] at ht
          cases hp : c.parse f.1 with
          | none =>
            have hno : ¬ fieldOk cfg.limit c f := by
              rintro (h | h)
              · exact hi h
              · simp [hp] at h
            simp only [hno, not_false_eq_true, decide_true, cond_true, Nat.zero_add, List.take_succ_cons, List.take_zero]
            have hno' : ¬ (f.2 = true ∧ cfg.limit = .treatAsBad) := fun h => ht h.1 h.2
            simp only [hno', if_false]
            congr 1
            by_cases hl : cfg.limit = .truncateWarn
            · by_cases hf : f.2 = true <;> simp [hl, hf, hi]
            · simp [hl]
          | some v =>
            have hok : fieldOk cfg.limit c f := by
              refine .inr ⟨by simp [hp], fun h => ?_⟩
              cases hf : f.2
              · rfl
              · exact absurd h (ht hf)
            simp only [hok, not_true_eq_false, decide_false, cond_false]
            rw [ih, ← List.append_assoc]
            congr 1
            · by_cases hl : cfg.limit = .truncateWarn
              · rw [if_pos hl, if_pos hl, List.take_succ_cons, List.filterMap_cons]
                by_cases hf : f.2 = true <;> simp [hl, hf, hi]
              · simp [hl]
            · simp only [Nat.add_right_cancel_iff, show idx + 1 + fs.length = idx + (fs.length + 1) by omega]

theorem rowWarnings_eq (cfg : RowCfg) (cols : List (CsvCol V)) (t : Tok) (row : Bytes) (ht : (tokenize cfg.tok row).2 = .ok ()) :
    rowWarnings cfg cols t row = cutFields cfg.limit cols (tokenize cfg.tok row).1 ++
      (if cfg.warnBad then (rowFault cfg.limit cols (tokenize cfg.tok row).1).toList else []) := by
  rw [rowWarnings_fields cfg cols t row ht, warnFields_eq]
  have h1 : ∀ fs, cutsFrom cfg.limit cols fs 0 = cutFields cfg.limit cols fs := fun fs => rfl
  have h2 : ∀ fs, faultFrom cfg.limit cols.length cols fs 0 = rowFault cfg.limit cols fs := by
    intro fs
    unfold faultFrom rowFault
    simp only [Nat.zero_add]
    rfl
  rw [h1, h2]

/-- Exactly the rows that are not well-formed have a fault. -/
theorem rowFault_none (limit : FieldLimit) (cols : List (CsvCol V)) (fs : List (Bytes × Bool)) :
    rowFault limit cols fs = none ↔ WellFormed limit cols fs := by
  unfold rowFault WellFormed
  split
  · rename_i x i hx
    have h1 := List.find?_some hx
    have h2 := List.mem_of_find?_eq_some hx
    simp only [reduceCtorEq, false_iff, not_and]
    intro _ h
    have := h x (List.fst_mem_of_mem_zipIdx h2)
    simp at h1
    exact h1 this
  · rename_i hx
    rw [List.find?_eq_none] at hx
    have : ∀ x ∈ cols.zip fs, fieldOk limit x.1 x.2 := by
      intro x h
      obtain ⟨i, hi, rfl⟩ := List.mem_iff_getElem.1 h
      have := hx ((cols.zip fs)[i], i) (List.mk_mem_zipIdx_iff_getElem?.2 (List.getElem?_eq_getElem hi))
      simpa using this
    split
    · rename_i hl; exact iff_of_true rfl ⟨hl, this⟩
    · rename_i hl; simp [hl]

theorem rowFault_some (limit : FieldLimit) (cols : List (CsvCol V)) (fs : List (Bytes × Bool)) :
    (∃ f, rowFault limit cols fs = some f) ↔ ¬ WellFormed limit cols fs := by
  rw [← rowFault_none, ← Option.isSome_iff_exists, ← Option.ne_none_iff_isSome]

/-- The outcome of a row whose fields can be told apart. -/
theorem decodeRow_out (cfg : RowCfg) (cols : List (CsvCol V)) (t : Tok) (row : Bytes) (ht : (tokenize cfg.tok row).2 = .ok ()) :
    (decodeRow cfg cols t row).out = if WellFormed cfg.limit cols (tokenize cfg.tok row).1 then .ok true else badRow cfg := by
  show (decodeRow cfg cols t row).sum.out = _
  rw [decodeRow_sum, ht]
  split
  · rename_i h
    exact (decodeFields_accept cfg _ cols _ 0 0).2 ⟨rfl, h⟩
  · rename_i h
    rcases decodeFields_out cfg cols (tokenize cfg.tok row).1 0 0 with h' | h'
    · exact absurd ((decodeFields_accept cfg _ cols _ 0 0).1 h').2 h
    · exact h'

/-- The rows up to and with the first that is not well-formed. -/
def tillBad (tok : TokParams) (limit : FieldLimit) (cols : List (CsvCol V)) : List Inst → List Inst
  | [] => []
  | i :: is => if GoodRow tok limit cols i then i :: tillBad tok limit cols is else [i]

theorem serWarnings_pad (tok : TokParams) (limit : FieldLimit) (warnBad : Bool) (h : BadHandling) (hh : h = .pad ∨ h = .padWarn)
    (cols : List (CsvCol V)) (is : List Inst) (hi : ∀ i ∈ is, (tokenize tok (i.bits.getD [])).2 = .ok ()) (t : Tok) :
    serWarnings (RowCfg.of tok limit warnBad h) h cols is t = is.flatMap (rowMessages tok limit warnBad cols) := by
  induction is generalizing t with
  | nil => rfl
  | cons i is ih =>
    have ht : (tokenize (RowCfg.of tok limit warnBad h).tok (i.bits.getD [])).2 = .ok () := hi i (by simp)
    rw [serWarnings, List.flatMap_cons, rowWarnings_eq _ cols t _ ht, decodeRow_out _ cols t _ ht, ih (fun j hj => hi j (by simp [hj]))]
    congr 1
    by_cases hg : WellFormed (RowCfg.of tok limit warnBad h).limit cols (tokenize (RowCfg.of tok limit warnBad h).tok (i.bits.getD [])).1
    · rw [if_pos hg]
    · rw [if_neg hg]
      rcases hh with rfl | rfl <;> simp [badRow, RowCfg.of]

theorem serWarnings_stops (tok : TokParams) (limit : FieldLimit) (warnBad : Bool) (h : BadHandling) (hh : h ≠ .pad ∧ h ≠ .padWarn)
    (cols : List (CsvCol V)) (is : List Inst) (hi : ∀ i ∈ is, (tokenize tok (i.bits.getD [])).2 = .ok ()) (t : Tok) :
    serWarnings (RowCfg.of tok limit warnBad h) h cols is t = (tillBad tok limit cols is).flatMap (rowMessages tok limit warnBad cols) := by
  induction is generalizing t with
  | nil => rfl
  | cons i is ih =>
    have ht : (tokenize (RowCfg.of tok limit warnBad h).tok (i.bits.getD [])).2 = .ok () := hi i (by simp)
    rw [serWarnings, rowWarnings_eq _ cols t _ ht, decodeRow_out _ cols t _ ht, ih (fun j hj => hi j (by simp [hj])), tillBad]
    by_cases hg : GoodRow tok limit cols i
    · rw [if_pos hg, List.flatMap_cons]
      have hg' : WellFormed (RowCfg.of tok limit warnBad h).limit cols (tokenize (RowCfg.of tok limit warnBad h).tok (i.bits.getD [])).1 := hg
      rw [if_pos hg']
      rfl
    · have hg' : ¬ WellFormed (RowCfg.of tok limit warnBad h).limit cols (tokenize (RowCfg.of tok limit warnBad h).tok (i.bits.getD [])).1 := hg
      rw [if_neg hg, if_neg hg', List.flatMap_cons, List.flatMap_nil]
      congr 1
      unfold badRow
      split
      · rename_i hx; split at hx <;> cases hx
      · rw [if_neg (by simp [hh])]
      · rfl

theorem taskWarnings_eq (tok : TokParams) (limit : FieldLimit) (warnBad : Bool) (h : BadHandling)
    (cols : List (CsvCol V)) (is : List Inst) (hi : ∀ i ∈ is, (tokenize tok (i.bits.getD [])).2 = .ok ()) (t : Tok) :
    taskWarnings (RowCfg.of tok limit warnBad h) cols is t = (tillBad tok limit cols is).flatMap (rowMessages tok limit warnBad cols) := by
  induction is generalizing t with
  | nil => rfl
  | cons i is ih =>
    have ht : (tokenize (RowCfg.of tok limit warnBad h).tok (i.bits.getD [])).2 = .ok () := hi i (by simp)
    rw [taskWarnings, rowWarnings_eq _ cols t _ ht, decodeRow_out _ cols t _ ht, ih (fun j hj => hi j (by simp [hj])), tillBad]
    by_cases hg : GoodRow tok limit cols i
    · rw [if_pos hg, List.flatMap_cons]
      have hg' : WellFormed (RowCfg.of tok limit warnBad h).limit cols (tokenize (RowCfg.of tok limit warnBad h).tok (i.bits.getD [])).1 := hg
      rw [if_pos hg']
      rfl
    · have hg' : ¬ WellFormed (RowCfg.of tok limit warnBad h).limit cols (tokenize (RowCfg.of tok limit warnBad h).tok (i.bits.getD [])).1 := hg
      rw [if_neg hg, if_neg hg', List.flatMap_cons, List.flatMap_nil]
      congr 1
      unfold badRow
      split
      · rename_i hx; split at hx <;> cases hx
      · rfl

theorem tillBad_eq (tok : TokParams) (limit : FieldLimit) (cols : List (CsvCol V)) (is : List Inst) :
    tillBad tok limit cols is = upToBad tok limit cols is := by
  induction is with
  | nil => rfl
  | cons i is ih =>
    rw [tillBad, upToBad, List.findIdx_cons]
    by_cases hg : GoodRow tok limit cols i
    · rw [if_pos hg, ih, upToBad]
      simp [hg]
    · rw [if_neg hg]
      simp [hg]

theorem interleaved_flatten_perm {α : Type} {ls : List (List α)} {zs : List α} (h : Interleaved ls zs) : zs.Perm ls.flatten := by
  induction h with
  | nil ls h =>
    rw [List.flatten_eq_nil_iff.2 h]
  | step pre post x l zs _ ih =>
    refine (ih.cons x).trans ?_
    rw [List.flatten_append, List.flatten_append, List.flatten_cons, List.flatten_cons, List.cons_append]
    exact (List.perm_middle).symm

end Mlio
