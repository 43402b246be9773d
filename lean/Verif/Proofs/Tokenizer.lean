import Verif.Model.Tokenizer
import Verif.Model.Text
import Verif.Spec.Csv

namespace Mlio

theorem tokScan_rest_lt (p : TokParams) (st : TState) (v v' : Bytes × Bool) (x rest : Bytes)
    (h : tokScan p st v x = .endField v' rest) : rest.length < x.length := by
  induction x generalizing st v with
  | nil => cases st <;> simp [tokScan] at h
  | cons c x ih =>
    cases st <;> simp only [tokScan] at h <;> (repeat' split at h) <;>
      first
      | (have := ih _ _ h; simp; omega)
      | (injection h with _ h2; subst h2; simp)

/-- `drain` depends on the remaining text and on `finished` only. -/
theorem drain_congr (p : TokParams) : ∀ (f : Nat) (t t' : Tok), t.text = t'.text →
    t.finished = t'.finished → Tok.drain p f t = Tok.drain p f t' := by
  intro f
  induction f with
  | zero => intros; rfl
  | succ f ih =>
    intro t t' h1 h2
    have hn : ((t.next p).1 = (t'.next p).1) ∧ (t.next p).2.text = (t'.next p).2.text ∧
        (t.next p).2.finished = (t'.next p).2.finished ∧ (t.next p).2.value = (t'.next p).2.value ∧
        (t.next p).2.truncated = (t'.next p).2.truncated := by
      simp only [Tok.next, h1, h2]
      split
      · simp [h1, h2]
      · split
        · simp [h2]
        · split <;> simp [h2]
    obtain ⟨e1, e2, e3, e4, e5⟩ := hn
    simp only [Tok.drain]
    rw [show t.next p = ((t.next p).1, (t.next p).2) from rfl,
      show t'.next p = ((t'.next p).1, (t'.next p).2) from rfl]
    cases h : (t.next p).1 with
    | ok b =>
      rw [h] at e1
      rw [← e1]
      cases b with
      | true => simp only; rw [ih _ _ e2 e3, e4, e5]
      | false => rfl
    | err e => rw [h] at e1; rw [← e1]
    | ub w => rw [h] at e1; rw [← e1]

theorem drain_finished (p : TokParams) (f : Nat) (t : Tok) (h : t.finished = true) :
    Tok.drain p (f + 1) t = ([], .ok ()) := by
  simp [Tok.drain, Tok.next, h]

/-- The fields from a given state of the label machine on. -/
def fieldsFrom (p : TokParams) (st : TState) (v : Bytes × Bool) (text : Bytes) :
    List (Bytes × Bool) × Res Unit :=
  match tokScan p st v text with
  | .endField v' rest => (v' :: (tokenize p rest).1, (tokenize p rest).2)
  | .endLine _ .inQuoted => ([], .err .corruptRecord)
  | .endLine v' _ => ([v'], .ok ())

theorem drain_fuel (p : TokParams) : ∀ (f : Nat) (text : Bytes), text.length + 2 ≤ f →
    Tok.drain p f (Tok.init text) = fieldsFrom p .newField ([], false) text := by
  intro f
  induction f using Nat.strongRecOn with
  | _ f ih =>
    intro text hf
    match f, hf with
    | f + 1, hf =>
      simp only [Tok.drain, Tok.next, Tok.init, fieldsFrom]
      cases hs : tokScan p .newField ([], false) text with
      | endField v rest =>
        have hlt := tokScan_rest_lt p _ _ _ _ _ hs
        simp only [Bool.false_eq_true, if_false]
        have hd := drain_congr p f ⟨rest, v.1, v.2, false, false⟩ (Tok.init rest) rfl rfl
        rw [hd, ih f (by omega) rest (by omega)]
        have : tokenize p rest = fieldsFrom p .newField ([], false) rest :=
          ih (rest.length + 2) (by omega) rest (by omega)
        rw [this]
      | endLine v st =>
        cases st <;> simp only [Bool.false_eq_true, if_false]
        all_goals
          match f, hf with
          | f + 1, _ => first | rw [drain_finished p f _ rfl] | rfl
          | 0, hf => omega

theorem tokenize_eq (p : TokParams) (text : Bytes) :
    tokenize p text = fieldsFrom p .newField ([], false) text :=
  drain_fuel p _ _ (Nat.le_refl _)

/-! One-step equations of `fieldsFrom`. -/

theorem fieldsFrom_delim (p : TokParams) (st : TState) (v : Bytes × Bool) (x : Bytes)
    (h : st ≠ .inQuoted) :
    fieldsFrom p st v (p.delimiter :: x) = (v :: (tokenize p x).1, (tokenize p x).2) := by
  cases st <;> simp [fieldsFrom, tokScan] at h ⊢

theorem fieldsFrom_nil (p : TokParams) (st : TState) (v : Bytes × Bool) (h : st ≠ .inQuoted) :
    fieldsFrom p st v [] = ([v], .ok ()) := by
  cases st <;> simp [fieldsFrom, tokScan] at h ⊢

/-! ## Quoting -/

open Spec

def noMax (p : TokParams) : Prop := p.maxField = none

theorem pushChar_noMax (p : TokParams) (h : p.maxField = none) (v : Bytes × Bool) (c : UInt8) :
    pushChar p v c = (v.1 ++ [c], v.2) := by simp [pushChar, h]

theorem tokScan_escape (p : TokParams) (hm : p.maxField = none) (hdq : p.delimiter ≠ p.quote)
    (w : Bytes) (v : Bytes) (b : Bool) (x : Bytes) :
    tokScan p .inQuoted (v, b) (escape p.quote w ++ p.quote :: x) =
      tokScan p .quoteInQuoted (v ++ w, b) x := by
  induction w generalizing v with
  | nil => simp [escape, tokScan]
  | cons c w ih =>
    by_cases hc : c = p.quote
    · subst hc
      simp only [escape, if_true, List.cons_append, tokScan, Ne.symm hdq, if_false,
        pushChar_noMax p hm]
      rw [ih]; simp
    · simp only [escape, hc, if_false, List.cons_append, tokScan, pushChar_noMax p hm]
      rw [ih]; simp

theorem tokScan_inField (p : TokParams) (hm : p.maxField = none) (w : Bytes)
    (hd : p.delimiter ∉ w) (v : Bytes) (b : Bool) (x : Bytes) :
    tokScan p .inField (v, b) (w ++ x) = tokScan p .inField (v ++ w, b) x := by
  induction w generalizing v with
  | nil => simp
  | cons c w ih =>
    simp only [List.mem_cons, not_or] at hd
    simp only [List.cons_append, tokScan, Ne.symm hd.1, if_false, pushChar_noMax p hm]
    rw [ih hd.2]; simp

/-- Reading one written field, when the text ends or the delimiter follows. -/
theorem fieldsFrom_field (p : TokParams) (hm : p.maxField = none) (hdq : p.delimiter ≠ p.quote)
    (f : Field) (hf : f.Ok p.delimiter p.quote) (x : Bytes)
    (hx : x = [] ∨ ∃ y, x = p.delimiter :: y) :
    fieldsFrom p .newField ([], false) (f.bytes p.quote ++ x) =
      match x with
      | [] => ([(f.value, false)], .ok ())
      | _ :: y => ((f.value, false) :: (tokenize p y).1, (tokenize p y).2) := by
  obtain ⟨w, quoted⟩ := f
  have hend : ∀ (st : TState), st ≠ .inQuoted → fieldsFrom p st (w, false) x =
      match x with
      | [] => ([(w, false)], .ok ())
      | _ :: y => ((w, false) :: (tokenize p y).1, (tokenize p y).2) := by
    intro st hst
    rcases hx with rfl | ⟨y, rfl⟩
    · exact fieldsFrom_nil p st _ hst
    · exact fieldsFrom_delim p st _ y hst
  cases quoted with
  | true =>
    have : tokScan p .newField ([], false) (Field.bytes p.quote ⟨w, true⟩ ++ x) =
        tokScan p .quoteInQuoted (w, false) x := by
      simp only [Field.bytes, if_true, List.cons_append, List.append_assoc, List.nil_append, tokScan,
        Ne.symm hdq, if_false]
      rw [tokScan_escape p hm hdq]; simp
    rw [← hend .quoteInQuoted (by simp)]
    simp only [fieldsFrom, this]
  | false =>
    simp only [Field.Ok, Bool.false_eq_true, false_or] at hf
    cases w with
    | nil =>
      rw [← hend .newField (by simp)]
      simp [Field.bytes]
    | cons c w =>
      simp only [List.head?_cons, ne_eq, Option.some.injEq, List.mem_cons, not_or] at hf
      have : tokScan p .newField ([], false) (Field.bytes p.quote ⟨c :: w, false⟩ ++ x) =
          tokScan p .inField (c :: w, false) x := by
        simp only [Field.bytes, Bool.false_eq_true, if_false, List.cons_append, tokScan,
          Ne.symm hf.1.1, hf.2, pushChar_noMax p hm]
        rw [tokScan_inField p hm w hf.1.2]; simp
      rw [← hend .inField (by simp)]
      simp only [fieldsFrom, this]

theorem tokenize_row (p : TokParams) (hm : p.maxField = none) (hdq : p.delimiter ≠ p.quote)
    (fs : List Field) (hne : fs ≠ []) (hf : ∀ f ∈ fs, f.Ok p.delimiter p.quote) :
    tokenize p (rowBytes p.delimiter p.quote fs) = (fs.map fun f => (f.value, false), .ok ()) := by
  induction fs with
  | nil => exact absurd rfl hne
  | cons f fs ih =>
    cases fs with
    | nil =>
      have := fieldsFrom_field p hm hdq f (hf f (by simp)) [] (Or.inl rfl)
      rw [tokenize_eq]
      simpa [rowBytes] using this
    | cons g gs =>
      have h1 := fieldsFrom_field p hm hdq f (hf f (by simp))
        (p.delimiter :: rowBytes p.delimiter p.quote (g :: gs)) (Or.inr ⟨_, rfl⟩)
      rw [tokenize_eq, rowBytes]
      · rw [h1]
        simp only
        rw [ih (by simp) (fun f hf' => hf f (by simp [hf']))]
        rfl
      · simp

/-! ## Length limit -/

/-- What the limit does to a field. -/
def cut (m : Nat) (v : Bytes × Bool) : Bytes × Bool := (v.1.take m, decide (m < v.1.length))

theorem pushChar_cut (p : TokParams) (m : Nat) (v : Bytes × Bool) (c : UInt8) :
    pushChar { p with maxField := some m } (cut m v) c =
      cut m (pushChar { p with maxField := none } v c) := by
  by_cases h : m ≤ v.1.length
  · have h1 : (cut m v).1.length = m := by simp [cut]; omega
    simp only [pushChar]
    rw [if_pos h1]
    simp only [cut]
    rw [List.take_append_of_le_length h]
    simp; omega
  · have h1 : (cut m v).1.length ≠ m := by simp [cut]; omega
    simp only [pushChar]
    rw [if_neg h1]
    simp only [cut, Prod.mk.injEq]
    constructor
    · rw [List.take_of_length_le (by omega), List.take_of_length_le (by simp; omega)]
    · simp; omega

theorem tokScan_cut (p : TokParams) (m : Nat) (st : TState) (v : Bytes × Bool) (x : Bytes) :
    tokScan { p with maxField := some m } st (cut m v) x =
      match tokScan { p with maxField := none } st v x with
      | .endField v' rest => .endField (cut m v') rest
      | .endLine v' st' => .endLine (cut m v') st' := by
  induction x generalizing st v with
  | nil => cases st <;> simp [tokScan]
  | cons c x ih =>
    cases st <;> simp only [tokScan] <;> (repeat' split) <;>
      first
      | rfl
      | (rw [pushChar_cut, ih]; simp_all; done)
      | (rw [ih]; simp_all; done)
      | simp_all

theorem tokenize_cut (p : TokParams) (m : Nat) (x : Bytes) :
    tokenize { p with maxField := some m } x =
      ((tokenize { p with maxField := none } x).1.map (cut m),
        (tokenize { p with maxField := none } x).2) := by
  induction hn : x.length using Nat.strongRecOn generalizing x with
  | _ n ih =>
    rw [tokenize_eq, tokenize_eq]
    have h := tokScan_cut p m .newField ([], false) x
    have h0 : cut m ([], false) = ([], false) := by simp [cut]
    rw [h0] at h
    simp only [fieldsFrom, h]
    cases hs : tokScan { p with maxField := none } .newField ([], false) x with
    | endField v rest =>
      have hlt := tokScan_rest_lt _ _ _ _ _ _ hs
      simp only
      rw [ih rest.length (by omega) rest rfl]
      simp
    | endLine v st => cases st <;> simp

theorem tokScan_false (p : TokParams) (st : TState) (v : Bytes) (x : Bytes) :
    (∀ v' rest, tokScan { p with maxField := none } st (v, false) x = .endField v' rest → v'.2 = false) ∧
    (∀ v' st', tokScan { p with maxField := none } st (v, false) x = .endLine v' st' → v'.2 = false) := by
  induction x generalizing st v with
  | nil =>
    cases st <;> simp only [tokScan] <;> refine ⟨by simp, ?_⟩ <;> intro v' st' h <;>
      (injection h with h1; subst h1; rfl)
  | cons c x ih =>
    have hp : ∀ v, pushChar { p with maxField := none } (v, false) c = (v ++ [c], false) := by
      intro v; simp [pushChar]
    cases st <;> simp only [tokScan, hp] <;> (repeat' split) <;>
      first
      | exact ih _ _
      | (refine ⟨?_, by simp⟩; intro v' st' h; injection h with h1; subst h1; rfl)

/-- Without limit no field is marked truncated. -/
theorem tokenize_nomax_flag (p : TokParams) (x : Bytes) :
    ∀ v ∈ (tokenize { p with maxField := none } x).1, v.2 = false := by
  induction hn : x.length using Nat.strongRecOn generalizing x with
  | _ n ih =>
    rw [tokenize_eq]
    simp only [fieldsFrom]
    have h := tokScan_false p .newField [] x
    cases hs : tokScan { p with maxField := none } .newField ([], false) x with
    | endField v rest =>
      have h := h.1 _ _ hs
      have hlt := tokScan_rest_lt _ _ _ _ _ _ hs
      simp only [List.mem_cons]
      rintro v' (rfl | hv)
      · exact h
      · exact ih rest.length (by omega) rest rfl v' hv
    | endLine v st =>
      have h := h.2 _ _ hs
      cases st <;> simp <;> exact h

end Mlio
