import Verif.Props.Decimal
import Verif.Props.CsvDecode
import Verif.Model.CsvNumbers

/-! # C113: tables of numbers -/

namespace Mlio

open Spec

theorem usedValues_all {V : Type} (cols : List (CsvCol V)) (fs : List (Bytes × Bool))
    (h : ∀ x ∈ cols.zip fs, x.1.ignore = false ∧ (x.1.parse x.2.1).isSome) (k : Nat) :
    (usedValues cols fs)[k]? = (cols.zip fs)[k]?.bind fun x => x.1.parse x.2.1 := by
  induction cols generalizing fs k with
  | nil => simp [usedValues]
  | cons c cols ih =>
    cases fs with
    | nil => simp [usedValues]
    | cons f fs =>
      have h0 := h (c, f) (by simp)
      obtain ⟨v, hv⟩ := Option.isSome_iff_exists.1 h0.2
      have ih := ih fs (fun x hx => h x (by rw [List.zip_cons_cons]; exact List.mem_cons_of_mem _ hx))
      have h1 : c.ignore = false := h0.1
      have hv : c.parse f.1 = some v := hv
      have hu : usedValues (c :: cols) (f :: fs) = v :: usedValues cols fs := by
        simp [usedValues, h1, hv]
      rw [hu]
      cases k with
      | zero => simp [hv]
      | succ k => simpa using ih k

/-- **C113**, for tables.  A batch of rows of numbers, written as CSV with quotes where they are wanted, one column for each number, is decoded, however the work is divided, to an example that
has in each column and row the number of the column's type that is nearest to the number there. -/
theorem C113_table (po : ParserOptions) (tok : TokParams) (hm : tok.maxField = none) (hdq : tok.delimiter ≠ tok.quote) (limit : FieldLimit)
    (warnBad : Bool) (bad : BadHandling) (dts : List DataType) (hd : dts ≠ []) (zero : DataType → Value Flt Flt) (dflt : Value Flt Flt) (size : Nat)
    (table : List (List (NumText × Bool))) (hsize : table.length ≤ size) (hw : ∀ row ∈ table, row.length = dts.length)
    (hfit : ∀ row ∈ table, ∀ (k : Nat) dt t, dts[k]? = some dt → row[k]? = some t → NumberFits dt t.1)
    (hq : ∀ row ∈ table, ∀ t ∈ row, Field.Ok tok.delimiter tok.quote ⟨t.1.bytes, t.2⟩)
    (out : Res (Option (CsvExample (Value Flt Flt))))
    (ho : DecodeBatch tok limit warnBad bad (dts.map fun dt => csvColumn po dt (zero dt)) dflt size
      (table.map fun row => rowBytes tok.delimiter tok.quote (row.map fun t => ⟨t.1.bytes, t.2⟩)) out) :
    ∃ ex, out = .ok (some ex) ∧ ex.padding = size - table.length ∧
      ∀ (j k : Nat) row t dt f mk, table[j]? = some row → row[k]? = some t → dts[k]? = some dt → FloatColumn dt f mk →
        ∃ v r, ex.tensors.cell k j = mk v ∧ Flt.value v = some r ∧ Nearest f t.1.value r := by
  have hcell : ∀ row ∈ table, ∀ (k : Nat) dt t f mk, dts[k]? = some dt → row[k]? = some t → FloatColumn dt f mk →
      ∃ v r, csvParse po dt t.1.bytes = some (mk v) ∧ Flt.value v = some r ∧ Nearest f t.1.value r := by
    intro row hr k dt t f mk h1 h2 hc
    obtain ⟨f', mk', hc', hv, hl⟩ := hfit row hr k dt t h1 h2
    have hf : f = f' := by cases hc <;> cases hc' <;> rfl
    subst hf
    obtain ⟨v, r, hok, h3, h4, _⟩ := (C113_nearest hc po t.1 hv).2 hl
    exact ⟨v, r, by simp [csvParse, hok], h3, h4⟩
  have htok : ∀ row ∈ table, tokenize tok (rowBytes tok.delimiter tok.quote (row.map fun t => ⟨t.1.bytes, t.2⟩)) =
      (row.map fun t => (t.1.bytes, false), .ok ()) := by
    intro row hr
    have := tokenize_row tok hm hdq (row.map fun t => (⟨t.1.bytes, t.2⟩ : Field)) ?_ ?_
    · rw [this, List.map_map]
      rfl
    · intro hc
      have h0 : row.length = 0 := by simpa using congrArg List.length hc
      rw [hw row hr] at h0
      exact hd (List.length_eq_zero_iff.1 h0)
    · intro f hf
      obtain ⟨t, ht, rfl⟩ := List.mem_map.1 hf
      exact hq row hr t ht
  have hzip : ∀ row ∈ table, ∀ x ∈ (dts.map fun dt => csvColumn po dt (zero dt)).zip (row.map fun t => (t.1.bytes, false)),
      x.1.ignore = false ∧ (x.1.parse x.2.1).isSome ∧ x.2.2 = false := by
    intro row hr x hx
    rw [List.zip_map] at hx
    obtain ⟨y, hy, rfl⟩ := List.mem_map.1 hx
    obtain ⟨k, hk⟩ := List.mem_iff_getElem?.1 hy
    rw [List.getElem?_zip_eq_some] at hk
    obtain ⟨f, mk, hc, -⟩ := hfit row hr k y.1 y.2 hk.1 hk.2
    obtain ⟨v, r, hp, -⟩ := hcell row hr k y.1 y.2 f mk hk.1 hk.2 hc
    exact ⟨rfl, by simp [Prod.map, csvColumn, hp], rfl⟩
  have hg : ∀ row ∈ table.map fun row => rowBytes tok.delimiter tok.quote (row.map fun t => ⟨t.1.bytes, t.2⟩),
      ∃ fs, tokenize tok row = (fs, .ok ()) ∧ WellFormed limit (dts.map fun dt => csvColumn po dt (zero dt)) fs := by
    intro row hrow
    obtain ⟨rw', hr, rfl⟩ := List.mem_map.1 hrow
    refine ⟨_, htok rw' hr, by simp [hw rw' hr], ?_⟩
    intro x hx
    obtain ⟨h1, h2, h3⟩ := hzip rw' hr x hx
    exact .inr ⟨h2, fun _ => h3⟩
  obtain ⟨ex, h1, h2, h3, -⟩ := C31_good_batch tok limit warnBad bad _ dflt size _ (by simpa using hsize) hg out ho
  · refine ⟨ex, h1, by simpa using h2, ?_⟩
    intro j k row t dt f mk hj hk hdt hc
    have hr : row ∈ table := List.mem_of_getElem? hj
    obtain ⟨v, r, hp, h4, h5⟩ := hcell row hr k dt t f mk hdt hk hc
    refine ⟨v, r, ?_, h4, h5⟩
    refine h3 k j _ (mk v) (by rw [List.getElem?_map, hj]; rfl) ?_
    rw [htok row hr, usedValues_all _ _ (fun x hx => ⟨(hzip row hr x hx).1, (hzip row hr x hx).2.1⟩)]
    rw [List.zip_map, List.getElem?_map, (List.getElem?_zip_eq_some (z := (dt, t))).2 ⟨hdt, hk⟩]
    exact hp

-- The row ` -1.25e+2,"0x1.8p-1"` for a column of each type.
example : NumberFits .float32 sampleDecimal ∧ Field.Ok 44 34 ⟨sampleDecimal.bytes, false⟩ ∧ Field.Ok 44 34 ⟨sampleHex.bytes, true⟩ ∧
    csvParse {} .float32 sampleDecimal.bytes = some (.f32 (.num true 16384000 (-17))) ∧
    csvParse {} .float64 sampleHex.bytes = some (.f64 (.num false 6755399441055744 (-53))) ∧
    csvParse {} .float64 [] = none := by
  refine ⟨⟨_, _, .single, ?_, ?_⟩, ?_, ?_, ?_, ?_, ?_⟩
  · exact sampleDecimal_valid.1
  · rw [sampleDecimal_valid.2]
    unfold TooLarge
    rw [abs_of_neg (by norm_num)]
    norm_num [ieeeSingle]
  · right; decide +kernel
  · left; rfl
  all_goals decide +kernel

end Mlio
