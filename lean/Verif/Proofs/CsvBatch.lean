import Verif.Proofs.CsvDecode

namespace Mlio

open Spec

variable {V : Type}

/-- The fields of the row can be told apart (no quote is left open). -/
def TokOk (p : TokParams) (row : Bytes) : Prop := (tokenize p row).2 = .ok ()

/-- The row is well-formed. -/
def RowGood (cfg : RowCfg) (cols : List (CsvCol V)) (row : Bytes) : Prop :=
  TokOk cfg.tok row ∧ WellFormed cfg.limit cols (tokenize cfg.tok row).1

instance (p : TokParams) (row : Bytes) : Decidable (TokOk p row) := by
  unfold TokOk; infer_instance

instance (cfg : RowCfg) (cols : List (CsvCol V)) (row : Bytes) : Decidable (RowGood cfg cols row) := by
  unfold RowGood; infer_instance

def rowVals (p : TokParams) (cols : List (CsvCol V)) (row : Bytes) : List V :=
  usedValues cols (tokenize p row).1

def usedCols (cols : List (CsvCol V)) : List (CsvCol V) := cols.filter fun c => !c.ignore

theorem usedCols_cons (c : CsvCol V) (cs : List (CsvCol V)) :
    (usedCols (c :: cs)).length = (usedCols cs).length + (if c.ignore then 0 else 1) := by
  unfold usedCols
  cases h : c.ignore <;> simp [h]

theorem usedValues_length (limit : FieldLimit) (cols : List (CsvCol V)) (fs : List (Bytes × Bool))
    (h : WellFormed limit cols fs) : (usedValues cols fs).length = (usedCols cols).length := by
  induction cols generalizing fs with
  | nil => simp [usedValues, usedCols]
  | cons c cs ih =>
    cases fs with
    | nil => simp [WellFormed] at h
    | cons f fs =>
      rw [wellFormed_cons] at h
      rw [usedCols_cons, ← ih fs h.2]
      rcases h.1 with hi | ⟨hp, _⟩
      · simp [usedValues, hi]
      · by_cases hi : c.ignore = true
        · simp [usedValues, hi]
        · cases hv : c.parse f.1 with
          | none => simp [hv] at hp
          | some v => simp [usedValues, hi, hv]

theorem decodeFields_bound (cfg : RowCfg) (o : Res Unit) (cols : List (CsvCol V)) (fs : List (Bytes × Bool))
    (idx tsr : Nat) : ∀ w ∈ (decodeFields cfg o cols fs idx tsr).writes, w.1 < tsr + (usedCols cols).length := by
  induction fs generalizing cols idx tsr with
  | nil =>
    simp only [decodeFields, fieldsEnd]
    rcases o with ⟨⟩ | e | w
    · cases cols <;> simp
    · simp
    · simp
  | cons f fs ih =>
    cases cols with
    | nil =>
      simp only [decodeFields, fieldsMore]
      split
      · rcases o with ⟨⟩ | e | w <;> simp
      · simp
    | cons c cs =>
      rw [decodeFields, usedCols_cons]
      split
      · rename_i hi
        intro w hw
        have := ih _ _ _ w hw
        simp [hi]; omega
      · rename_i hi
        simp only [hi, Bool.false_eq_true, if_false]
        split
        · simp
        · split
          · intro w hw
            simp only [List.mem_cons] at hw
            rcases hw with rfl | hw
            · simp
            · have := ih _ _ _ w hw
              omega
          · simp

theorem sum_out (r : RowRun V) : r.sum.out = r.out := rfl
theorem sum_writes (r : RowRun V) : r.sum.writes = r.writes := rfl

theorem decodeRow_bound (cfg : RowCfg) (cols : List (CsvCol V)) (t : Tok) (row : Bytes) :
    ∀ w ∈ (decodeRow cfg cols t row).writes, w.1 < (usedCols cols).length := by
  have := decodeFields_bound cfg (tokenize cfg.tok row).2 cols (tokenize cfg.tok row).1 0 0
  rw [← decodeRow_sum cfg cols t row, sum_writes] at this
  simpa using this

theorem decodeRow_good (cfg : RowCfg) (cols : List (CsvCol V)) (t : Tok) (row : Bytes)
    (h : RowGood cfg cols row) :
    (decodeRow cfg cols t row).out = .ok true ∧
    (decodeRow cfg cols t row).writes = (rowVals cfg.tok cols row).zipIdx.map fun x => (x.2, x.1) := by
  have h1 : (decodeRow cfg cols t row).sum.out = .ok true := by
    rw [decodeRow_sum, decodeFields_accept]; exact h
  refine ⟨h1, ?_⟩
  rw [decodeRow_sum] at h1
  have := decodeFields_writes cfg _ cols _ 0 0 h1
  rw [← decodeRow_sum cfg cols t row] at this
  exact this

theorem decodeRow_bad (cfg : RowCfg) (cols : List (CsvCol V)) (t : Tok) (row : Bytes)
    (ht : TokOk cfg.tok row) (h : ¬ RowGood cfg cols row) : (decodeRow cfg cols t row).out = badRow cfg := by
  have h1 : (decodeRow cfg cols t row).sum.out ≠ .ok true := by
    rw [decodeRow_sum, Ne, decodeFields_accept]; exact h
  have h2 := decodeFields_out cfg cols (tokenize cfg.tok row).1 0 0
  rw [← ht, ← decodeRow_sum cfg cols t row] at h2
  exact h2.resolve_left h1

/-! ## Writing -/

/-- The last value written to a cell. -/
def lastWrite (ws : List (Nat × Nat × V)) (k r : Nat) : Option V :=
  (ws.filter fun w => w.1 == r && w.2.1 == k).getLast?.map fun w => w.2.2

theorem lastWrite_cons (row k' : Nat) (v : V) (ws : List (Nat × Nat × V)) (k r : Nat) :
    lastWrite ((row, k', v) :: ws) k r =
      (lastWrite ws k r).or (if row = r ∧ k' = k then some v else none) := by
  unfold lastWrite
  by_cases h : row = r ∧ k' = k
  · rw [List.filter_cons_of_pos (by simp [h])]
    rw [if_pos h, List.getLast?_cons]
    cases (List.filter (fun w => w.1 == r && w.2.1 == k) ws).getLast? <;> simp
  · rw [List.filter_cons_of_neg (by simpa using h), if_neg h]
    simp

theorem writeAll_spec (ws : List (Nat × Nat × V)) (ts : Tensors V)
    (hb : ∀ w ∈ ws, w.2.1 < ts.cols ∧ w.1 < ts.rows) :
    ∃ ts', ts.writeAll ws = .ok ts' ∧ ts'.cols = ts.cols ∧ ts'.rows = ts.rows ∧
      ∀ k r, ts'.cell k r = (lastWrite ws k r).getD (ts.cell k r) := by
  induction ws generalizing ts with
  | nil => exact ⟨ts, rfl, rfl, rfl, fun k r => rfl⟩
  | cons w ws ih =>
    obtain ⟨row, k', v⟩ := w
    have h0 := hb (row, k', v) (by simp)
    simp only at h0
    obtain ⟨ts', h1, h2, h3, h4⟩ := ih
      { ts with cell := fun k r => if k = k' ∧ r = row then v else ts.cell k r }
      (fun w hw => hb w (by simp [hw]))
    refine ⟨ts', ?_, h2, h3, fun k r => ?_⟩
    · rw [Tensors.writeAll, Tensors.write, if_pos h0]
      exact h1
    · rw [h4, lastWrite_cons]
      cases hl : lastWrite ws k r with
      | some x => simp
      | none =>
        by_cases h : row = r ∧ k' = k
        · simp [h.1, h.2]
        · have h' : ¬ (k = k' ∧ r = row) := fun hh => h ⟨hh.2.symm, hh.1.symm⟩
          simp [h, h']

theorem lastWrite_none (ws : List (Nat × Nat × V)) (k r : Nat) (h : ∀ v, (r, k, v) ∉ ws) :
    lastWrite ws k r = none := by
  unfold lastWrite
  rw [List.filter_eq_nil_iff.2]
  · rfl
  · rintro ⟨r', k', v⟩ hm
    simp only [Bool.and_eq_true, beq_iff_eq]
    rintro ⟨rfl, rfl⟩
    exact h v hm

theorem lastWrite_some (ws : List (Nat × Nat × V)) (k r : Nat) (v : V) (hm : (r, k, v) ∈ ws)
    (hu : ∀ v', (r, k, v') ∈ ws → v' = v) : lastWrite ws k r = some v := by
  unfold lastWrite
  cases hl : (ws.filter fun w => w.1 == r && w.2.1 == k).getLast? with
  | none =>
    rw [List.getLast?_eq_none_iff] at hl
    have : (r, k, v) ∈ ws.filter fun w => w.1 == r && w.2.1 == k := List.mem_filter.2 ⟨hm, by simp⟩
    simp [hl] at this
  | some w =>
    have := List.mem_of_getLast? hl
    obtain ⟨h1, h2⟩ := List.mem_filter.1 this
    obtain ⟨r', k', v'⟩ := w
    simp only [Bool.and_eq_true, beq_iff_eq] at h2
    obtain ⟨rfl, rfl⟩ := h2
    simp [hu v' h1]

/-- The writes of a row at a position. -/
def rowWrites (p : TokParams) (cols : List (CsvCol V)) (idx : Nat) (row : Bytes) : List (Nat × Nat × V) :=
  (rowVals p cols row).zipIdx.map fun x => (idx, x.2, x.1)

theorem mem_rowWrites (p : TokParams) (cols : List (CsvCol V)) (idx : Nat) (row : Bytes) (r k : Nat) (v : V) :
    (r, k, v) ∈ rowWrites p cols idx row ↔ r = idx ∧ (rowVals p cols row)[k]? = some v := by
  simp only [rowWrites, List.mem_map, Prod.mk.injEq, Prod.exists, List.mem_zipIdx_iff_getElem?]
  constructor
  · rintro ⟨a, b, h, h1, h2, h3⟩
    subst h1 h2 h3
    exact ⟨rfl, h⟩
  · rintro ⟨rfl, h⟩
    exact ⟨v, k, h, rfl, rfl, rfl⟩

/-! ## A batch, one row after the other -/

def goodRows (cfg : RowCfg) (cols : List (CsvCol V)) (rows : List Bytes) : List Bytes :=
  rows.filter fun r => decide (RowGood cfg cols r)

theorem decodeSer_spec (cfg : RowCfg) (h : BadHandling) (cols : List (CsvCol V)) :
    ∀ (rows : List Bytes) (t : Tok) (idx : Nat) (ts : Tensors V),
    (∀ row ∈ rows, TokOk cfg.tok row) →
    ((∃ row ∈ rows, ¬ RowGood cfg cols row) → cfg.errorBad = false ∧ (h = .pad ∨ h = .padWarn)) →
    idx + rows.length ≤ ts.rows → ts.cols = (usedCols cols).length →
    ∃ ts', decodeSer cfg h cols rows t idx ts = .ok (some (idx + (goodRows cfg cols rows).length), ts') ∧
      ts'.cols = ts.cols ∧ ts'.rows = ts.rows ∧
      (∀ k r, r < idx → ts'.cell k r = ts.cell k r) ∧
      (∀ k (j : Nat) row v, (goodRows cfg cols rows)[j]? = some row → (rowVals cfg.tok cols row)[k]? = some v →
        ts'.cell k (idx + j) = v) ∧
      (∀ k r, idx + (goodRows cfg cols rows).length < r → ts'.cell k r = ts.cell k r) ∧
      ((∀ row, rows.getLast? = some row → RowGood cfg cols row) →
        ∀ k, ts'.cell k (idx + (goodRows cfg cols rows).length) =
          ts.cell k (idx + (goodRows cfg cols rows).length)) := by
  intro rows
  induction rows with
  | nil =>
    intro t idx ts _ _ _ _
    exact ⟨ts, by simp [decodeSer, goodRows], rfl, rfl, fun _ _ _ => rfl, by simp [goodRows],
      fun _ _ _ => rfl, fun _ _ => rfl⟩
  | cons row rows ih =>
    intro t idx ts htok hbad hlen hcols
    have hlen' : idx + 1 + rows.length ≤ ts.rows := by simpa [Nat.add_assoc, Nat.add_comm 1] using hlen
    have hwb : ∀ w ∈ (decodeRow cfg cols t row).writes.map (fun w => (idx, w)),
        w.2.1 < ts.cols ∧ w.1 < ts.rows := by
      intro w hw
      obtain ⟨w', hw', rfl⟩ := List.mem_map.1 hw
      exact ⟨by rw [hcols]; exact decodeRow_bound cfg cols t row w' hw', by simp; omega⟩
    obtain ⟨ts1, hw1, hc1, hr1, hcell1⟩ := writeAll_spec _ ts hwb
    have hother : ∀ k r, r ≠ idx → ts1.cell k r = ts.cell k r := by
      intro k r hr
      rw [hcell1, lastWrite_none]
      · rfl
      · intro v hm
        obtain ⟨w', _, hw'⟩ := List.mem_map.1 hm
        simp only [Prod.mk.injEq] at hw'
        exact hr hw'.1.symm
    have htok' : ∀ r ∈ rows, TokOk cfg.tok r := fun r hr => htok r (by simp [hr])
    have hbad' : (∃ r ∈ rows, ¬ RowGood cfg cols r) → cfg.errorBad = false ∧ (h = .pad ∨ h = .padWarn) :=
      fun ⟨r, hr, hg⟩ => hbad ⟨r, by simp [hr], hg⟩
    simp only [decodeSer, hw1]
    by_cases hg : RowGood cfg cols row
    · obtain ⟨ho, hws⟩ := decodeRow_good cfg cols t row hg
      have hgr : goodRows cfg cols (row :: rows) = row :: goodRows cfg cols rows := by
        simp [goodRows, hg]
      rw [ho, hgr]
      obtain ⟨ts', h1, h2, h3, h4, h5, h6, h7⟩ := ih (decodeRow cfg cols t row).tok (idx + 1) ts1 htok' hbad'
        (by omega) (by rw [hc1, hcols])
      have hlen2 : idx + 1 + (goodRows cfg cols rows).length = idx + (row :: goodRows cfg cols rows).length := by
        simp; omega
      refine ⟨ts', by rw [← hlen2]; exact h1, by rw [h2, hc1], by rw [h3, hr1], ?_, ?_, ?_, ?_⟩
      · intro k r hr
        rw [h4 k r (by omega), hother k r (by omega)]
      · intro k j row' v hj hv
        cases j with
        | zero =>
          simp only [List.getElem?_cons_zero, Option.some.injEq] at hj
          subst hj
          rw [Nat.add_zero, h4 k idx (by omega), hcell1]
          have hww : (decodeRow cfg cols t row).writes.map (fun w => (idx, w)) = rowWrites cfg.tok cols idx row := by
            rw [hws, rowWrites, List.map_map]; rfl
          rw [hww, lastWrite_some _ k idx v]
          · rfl
          · exact (mem_rowWrites ..).2 ⟨rfl, hv⟩
          · intro v' hv'
            have := ((mem_rowWrites ..).1 hv').2
            rw [hv] at this
            exact (Option.some.inj this).symm
        | succ j =>
          rw [show idx + (j + 1) = idx + 1 + j by omega]
          exact h5 k j row' v (by simpa using hj) hv
      · intro k r hr
        rw [← hlen2] at hr
        rw [h6 k r hr, hother k r (by omega)]
      · intro hl k
        rw [← hlen2, h7 ?_ k, hother k _ (by omega)]
        intro r hr
        apply hl
        rw [List.getLast?_cons, hr]; rfl
    · obtain ⟨he, hh⟩ := hbad ⟨row, by simp, hg⟩
      have ho := decodeRow_bad cfg cols t row (htok row (by simp)) hg
      have hgr : goodRows cfg cols (row :: rows) = goodRows cfg cols rows := by
        simp [goodRows, hg]
      rw [ho, hgr]
      have hb : badRow cfg = .ok false := by simp [badRow, he]
      have hns : ¬ (h = .skip ∨ h = .skipWarn) := by rcases hh with rfl | rfl <;> simp
      rw [hb]
      simp only [hns, hh, if_false, if_true]
      obtain ⟨ts', h1, h2, h3, h4, h5, h6, h7⟩ := ih (decodeRow cfg cols t row).tok idx ts1 htok' hbad'
        (by omega) (by rw [hc1, hcols])
      refine ⟨ts', h1, by rw [h2, hc1], by rw [h3, hr1], ?_, h5, ?_, ?_⟩
      · intro k r hr
        rw [h4 k r hr, hother k r (by omega)]
      · intro k r hr
        rw [h6 k r hr, hother k r (by omega)]
      · intro hl k
        have hne : rows ≠ [] := by
          rintro rfl
          exact hg (hl row rfl)
        have hl' : ∀ r, rows.getLast? = some r → RowGood cfg cols r := by
          intro r hr
          apply hl
          rw [List.getLast?_cons, hr]; rfl
        have hpos : 0 < (goodRows cfg cols rows).length := by
          obtain ⟨r, hr⟩ : ∃ r, rows.getLast? = some r := by
            cases hx : rows.getLast? with
            | none => rw [List.getLast?_eq_none_iff] at hx; exact absurd hx hne
            | some r => exact ⟨r, rfl⟩
          apply List.length_pos_iff.2
          intro hnil
          have : r ∈ goodRows cfg cols rows :=
            List.mem_filter.2 ⟨List.mem_of_getLast? hr, by simpa using hl' r hr⟩
          rw [hnil] at this
          simp at this
        rw [h7 hl' k, hother k _ (by omega)]

theorem decodeSer_stops (cfg : RowCfg) (h : BadHandling) (cols : List (CsvCol V))
    (hmode : (cfg.errorBad = false ∧ (h = .skip ∨ h = .skipWarn)) ∨ (cfg.errorBad = true ∧ h = .error)) :
    ∀ (rows : List Bytes) (t : Tok) (idx : Nat) (ts : Tensors V),
    (∀ row ∈ rows, TokOk cfg.tok row) → (∃ row ∈ rows, ¬ RowGood cfg cols row) →
    idx + rows.length ≤ ts.rows → ts.cols = (usedCols cols).length →
    (∃ ts', decodeSer cfg h cols rows t idx ts = .ok (none, ts')) ∧ (h = .skip ∨ h = .skipWarn) ∨
    decodeSer cfg h cols rows t idx ts = .err .invalidInstance ∧ h = .error := by
  intro rows
  induction rows with
  | nil => rintro _ _ _ _ ⟨r, hr, _⟩; simp at hr
  | cons row rows ih =>
    intro t idx ts htok hbad hlen hcols
    have hlen' : idx + 1 + rows.length ≤ ts.rows := by simpa [Nat.add_assoc, Nat.add_comm 1] using hlen
    have hwb : ∀ w ∈ (decodeRow cfg cols t row).writes.map (fun w => (idx, w)),
        w.2.1 < ts.cols ∧ w.1 < ts.rows := by
      intro w hw
      obtain ⟨w', hw', rfl⟩ := List.mem_map.1 hw
      exact ⟨by rw [hcols]; exact decodeRow_bound cfg cols t row w' hw', by simp; omega⟩
    obtain ⟨ts1, hw1, hc1, hr1, _⟩ := writeAll_spec _ ts hwb
    simp only [decodeSer, hw1]
    by_cases hg : RowGood cfg cols row
    · obtain ⟨ho, _⟩ := decodeRow_good cfg cols t row hg
      rw [ho]
      apply ih _ _ _ (fun r hr => htok r (by simp [hr])) _ (by omega) (by rw [hc1, hcols])
      obtain ⟨r, hr, hb⟩ := hbad
      rcases List.mem_cons.1 hr with rfl | hr
      · exact absurd hg hb
      · exact ⟨r, hr, hb⟩
    · have ho := decodeRow_bad cfg cols t row (htok row (by simp)) hg
      rw [ho, badRow]
      rcases hmode with ⟨he, hh⟩ | ⟨he, hh⟩
      · left
        refine ⟨⟨ts1, ?_⟩, hh⟩
        simp [he, hh]
      · right
        refine ⟨?_, hh⟩
        simp [he]

/-! ## A batch in parallel -/

theorem interleaved_mem {α : Type} (ls : List (List α)) (zs : List α) (h : Interleaved ls zs) (x : α) :
    x ∈ zs ↔ ∃ l ∈ ls, x ∈ l := by
  induction h with
  | nil ls h =>
    simp only [List.not_mem_nil, false_iff, not_exists, not_and]
    intro l hl hx
    rw [h l hl] at hx
    simp at hx
  | step pre post y l zs _ ih =>
    rw [List.mem_cons, ih]
    simp only [List.mem_append, List.mem_cons]
    constructor
    · rintro (rfl | ⟨l', hl', hx⟩)
      · exact ⟨x :: l, by simp, by simp⟩
      · rcases hl' with h | rfl | h
        · exact ⟨l', by simp [h], hx⟩
        · exact ⟨y :: l', by simp, by simp [hx]⟩
        · exact ⟨l', by simp [h], hx⟩
    · rintro ⟨l', hl', hx⟩
      rcases hl' with h | rfl | h
      · exact Or.inr ⟨l', by simp [h], hx⟩
      · rcases List.mem_cons.1 hx with rfl | hx
        · exact Or.inl rfl
        · exact Or.inr ⟨l, by simp, hx⟩
      · exact Or.inr ⟨l', by simp [h], hx⟩

theorem interleaved_single {α : Type} (l : List α) : Interleaved [l] l := by
  induction l with
  | nil => exact .nil _ (by simp)
  | cons x l ih => exact .step [] [] x l l ih

theorem taskRun_bound (cfg : RowCfg) (h : BadHandling) (cols : List (CsvCol V)) :
    ∀ (b : List (Nat × Bytes)) (t : Tok), ∀ w ∈ (taskRun cfg h cols b t).1,
      w.2.1 < (usedCols cols).length ∧ ∃ x ∈ b, w.1 = x.1 := by
  intro b
  induction b with
  | nil => intro t w hw; simp [taskRun] at hw
  | cons x b ih =>
    obtain ⟨idx, row⟩ := x
    intro t w hw
    have key : w ∈ (decodeRow cfg cols t row).writes.map (fun w => (idx, w)) →
        w.2.1 < (usedCols cols).length ∧ ∃ x ∈ (idx, row) :: b, w.1 = x.1 := by
      intro hm
      obtain ⟨w', hw', rfl⟩ := List.mem_map.1 hm
      exact ⟨decodeRow_bound cfg cols t row w' hw', (idx, row), by simp, rfl⟩
    simp only [taskRun] at hw
    split at hw
    · exact key hw
    · exact key hw
    · simp only [List.mem_append] at hw
      rcases hw with hw | hw
      · exact key hw
      · obtain ⟨h1, x, hx, h2⟩ := ih _ w hw
        exact ⟨h1, x, by simp [hx], h2⟩
    · split at hw <;> exact key hw

theorem taskRun_good (cfg : RowCfg) (h : BadHandling) (cols : List (CsvCol V)) :
    ∀ (b : List (Nat × Bytes)) (t : Tok), (∀ x ∈ b, RowGood cfg cols x.2) →
      taskRun cfg h cols b t = (b.flatMap fun x => rowWrites cfg.tok cols x.1 x.2, .done) := by
  intro b
  induction b with
  | nil => intro t _; rfl
  | cons x b ih =>
    obtain ⟨idx, row⟩ := x
    intro t hg
    obtain ⟨ho, hws⟩ := decodeRow_good cfg cols t row (hg (idx, row) (by simp))
    simp only [taskRun, ho, hws]
    rw [ih _ (fun x hx => hg x (by simp [hx]))]
    simp only [List.flatMap_cons, rowWrites, List.map_map]
    rfl

theorem taskRun_bad (cfg : RowCfg) (h : BadHandling) (cols : List (CsvCol V))
    (hmode : (cfg.errorBad = false ∧ (h = .skip ∨ h = .skipWarn)) ∨ (cfg.errorBad = true ∧ h = .error)) :
    ∀ (b : List (Nat × Bytes)) (t : Tok), (∀ x ∈ b, TokOk cfg.tok x.2) → (∃ x ∈ b, ¬ RowGood cfg cols x.2) →
      (taskRun cfg h cols b t).2 = if h = .error then .threw .invalidInstance else .skipped := by
  intro b
  induction b with
  | nil => rintro _ _ ⟨x, hx, _⟩; simp at hx
  | cons x b ih =>
    obtain ⟨idx, row⟩ := x
    intro t htok hbad
    simp only [taskRun]
    by_cases hg : RowGood cfg cols row
    · obtain ⟨ho, _⟩ := decodeRow_good cfg cols t row hg
      rw [ho]
      simp only
      apply ih _ (fun x hx => htok x (by simp [hx]))
      obtain ⟨y, hy, hb⟩ := hbad
      rcases List.mem_cons.1 hy with rfl | hy
      · exact absurd hg hb
      · exact ⟨y, hy, hb⟩
    · have ho := decodeRow_bad cfg cols t row (htok (idx, row) (by simp)) hg
      rw [ho, badRow]
      rcases hmode with ⟨he, hh⟩ | ⟨he, hh⟩
      · have : h ≠ .error := by rcases hh with rfl | rfl <;> simp
        simp [he, hh, this]
      · simp [he, hh]

/-- With rows whose fields can be told apart a task either decodes all rows or meets a bad row. -/
theorem taskRun_end (cfg : RowCfg) (h : BadHandling) (cols : List (CsvCol V))
    (hmode : (cfg.errorBad = false ∧ (h = .skip ∨ h = .skipWarn)) ∨ (cfg.errorBad = true ∧ h = .error))
    (b : List (Nat × Bytes)) (t : Tok) (htok : ∀ x ∈ b, TokOk cfg.tok x.2) :
    ((∀ x ∈ b, RowGood cfg cols x.2) ∧ (taskRun cfg h cols b t).2 = .done) ∨
    ((∃ x ∈ b, ¬ RowGood cfg cols x.2) ∧
      (taskRun cfg h cols b t).2 = if h = .error then .threw .invalidInstance else .skipped) := by
  by_cases hg : ∀ x ∈ b, RowGood cfg cols x.2
  · exact Or.inl ⟨hg, by rw [taskRun_good cfg h cols b t hg]⟩
  · have : ∃ x ∈ b, ¬ RowGood cfg cols x.2 := by
      simpa only [Classical.not_forall, not_imp, exists_prop] using hg
    exact Or.inr ⟨this, taskRun_bad cfg h cols hmode b t htok this⟩

theorem mem_blocks (rows : List Bytes) (blocks : List (List (Nat × Bytes)))
    (hb : blocks.flatten = rows.zipIdx.map (fun x => (x.2, x.1))) (i : Nat) (row : Bytes) :
    (∃ b ∈ blocks, (i, row) ∈ b) ↔ rows[i]? = some row := by
  have : (i, row) ∈ blocks.flatten ↔ rows[i]? = some row := by
    rw [hb]
    simp only [List.mem_map, Prod.mk.injEq, Prod.exists, List.mem_zipIdx_iff_getElem?]
    constructor
    · rintro ⟨a, b, h, rfl, rfl⟩; exact h
    · intro h; exact ⟨row, i, h, rfl, rfl⟩
  rw [← this, List.mem_flatten]

theorem prl_bound (cfg : RowCfg) (h : BadHandling) (cols : List (CsvCol V)) (t : Tok) (rows : List Bytes)
    (ts : Tensors V) (hlen : rows.length ≤ ts.rows) (hcols : ts.cols = (usedCols cols).length)
    (blocks : List (List (Nat × Bytes))) (ws : List (Nat × Nat × V))
    (hb : blocks.flatten = rows.zipIdx.map (fun x => (x.2, x.1)))
    (hw : Interleaved (blocks.map fun b => (taskRun cfg h cols b t).1) ws) :
    ∀ w ∈ ws, w.2.1 < ts.cols ∧ w.1 < ts.rows := by
  intro w hm
  obtain ⟨l, hl, hwl⟩ := (interleaved_mem _ _ hw w).1 hm
  obtain ⟨b, hbm, rfl⟩ := List.mem_map.1 hl
  obtain ⟨h1, ⟨i, row⟩, hx, h2⟩ := taskRun_bound cfg h cols b t w hwl
  refine ⟨by rw [hcols]; exact h1, ?_⟩
  have := (mem_blocks rows blocks hb i row).1 ⟨b, hbm, hx⟩
  have := (List.getElem?_eq_some_iff.1 this).1
  simp only at h2
  omega

/-- All rows good: every parallel execution gives the tensors that the rows say. -/
theorem decodePrl_good (cfg : RowCfg) (h : BadHandling) (cols : List (CsvCol V)) (t : Tok) (rows : List Bytes)
    (ts : Tensors V) (hlen : rows.length ≤ ts.rows) (hcols : ts.cols = (usedCols cols).length)
    (hg : ∀ row ∈ rows, RowGood cfg cols row) (o : Res (Option Nat × Tensors V))
    (ho : DecodePrl cfg h cols t rows ts o) :
    ∃ ts', o = .ok (some rows.length, ts') ∧ ts'.cols = ts.cols ∧ ts'.rows = ts.rows ∧
      (∀ k (j : Nat) row v, rows[j]? = some row → (rowVals cfg.tok cols row)[k]? = some v → ts'.cell k j = v) ∧
      (∀ k r, rows.length ≤ r → ts'.cell k r = ts.cell k r) := by
  have hgb : ∀ blocks : List (List (Nat × Bytes)), blocks.flatten = rows.zipIdx.map (fun x => (x.2, x.1)) →
      ∀ b ∈ blocks, ∀ x ∈ b, RowGood cfg cols x.2 := by
    intro blocks hb b hbm x hx
    exact hg _ (List.mem_of_getElem? ((mem_blocks rows blocks hb x.1 x.2).1 ⟨b, hbm, hx⟩))
  cases ho with
  | finished blocks ws ts' hb hw he hts =>
    have hgb' := hgb blocks hb
    obtain ⟨ts1, hw1, hc1, hr1, hcell1⟩ :=
      writeAll_spec ws ts (prl_bound cfg h cols t rows ts hlen hcols blocks ws hb hw)
    rw [hw1] at hts
    injection hts with hts
    subst hts
    have hmem : ∀ r k v, (r, k, v) ∈ ws ↔ ∃ row, rows[r]? = some row ∧ (rowVals cfg.tok cols row)[k]? = some v := by
      intro r k v
      rw [interleaved_mem _ _ hw]
      constructor
      · rintro ⟨l, hl, hm⟩
        obtain ⟨b, hbm, rfl⟩ := List.mem_map.1 hl
        rw [taskRun_good cfg h cols b t (hgb' b hbm)] at hm
        simp only [List.mem_flatMap] at hm
        obtain ⟨⟨i, row⟩, hx, hm⟩ := hm
        obtain ⟨h1, h2⟩ := (mem_rowWrites ..).1 hm
        simp only at h1 h2
        subst h1
        exact ⟨row, (mem_blocks rows blocks hb r row).1 ⟨b, hbm, hx⟩, h2⟩
      · rintro ⟨row, hr, hv⟩
        obtain ⟨b, hbm, hx⟩ := (mem_blocks rows blocks hb r row).2 hr
        refine ⟨_, List.mem_map.2 ⟨b, hbm, rfl⟩, ?_⟩
        rw [taskRun_good cfg h cols b t (hgb' b hbm)]
        simp only [List.mem_flatMap]
        exact ⟨(r, row), hx, (mem_rowWrites ..).2 ⟨rfl, hv⟩⟩
    refine ⟨ts1, ?_, hc1, hr1, ?_, ?_⟩
    · have : blocks.any (fun b => (taskRun cfg h cols b t).2 == .skipped) = false := by
        rw [List.any_eq_false]
        intro b hbm
        rw [taskRun_good cfg h cols b t (hgb' b hbm)]
        show ¬ (TaskEnd.done == TaskEnd.skipped) = true
        decide
      rw [this]; rfl
    · intro k j row v hj hv
      rw [hcell1, lastWrite_some ws k j v ((hmem ..).2 ⟨row, hj, hv⟩)]
      · rfl
      · intro v' hv'
        obtain ⟨row', hj', hv''⟩ := (hmem ..).1 hv'
        rw [hj] at hj'
        injection hj' with hj'
        subst hj'
        rw [hv] at hv''
        exact (Option.some.inj hv'').symm
    · intro k r hr
      rw [hcell1, lastWrite_none]
      · rfl
      · intro v hm
        obtain ⟨row', hj', _⟩ := (hmem ..).1 hm
        have := (List.getElem?_eq_some_iff.1 hj').1
        omega
  | threw blocks b e hb hm he =>
    rw [taskRun_good cfg h cols b t (hgb blocks hb b hm)] at he
    simp at he
  | ub blocks ws w hb hw hu =>
    rcases hu with hu | ⟨b, hbm, hu⟩
    · obtain ⟨ts1, hw1, _⟩ :=
        writeAll_spec ws ts (prl_bound cfg h cols t rows ts hlen hcols blocks ws hb hw)
      rw [hw1] at hu
      simp at hu
    · rw [taskRun_good cfg h cols b t (hgb blocks hb b hbm)] at hu
      simp at hu

/-- A bad row: every parallel execution skips the example or throws, as asked. -/
theorem decodePrl_bad (cfg : RowCfg) (h : BadHandling) (cols : List (CsvCol V))
    (hmode : (cfg.errorBad = false ∧ (h = .skip ∨ h = .skipWarn)) ∨ (cfg.errorBad = true ∧ h = .error))
    (t : Tok) (rows : List Bytes)
    (ts : Tensors V) (hlen : rows.length ≤ ts.rows) (hcols : ts.cols = (usedCols cols).length)
    (htok : ∀ row ∈ rows, TokOk cfg.tok row) (hbad : ∃ row ∈ rows, ¬ RowGood cfg cols row)
    (o : Res (Option Nat × Tensors V)) (ho : DecodePrl cfg h cols t rows ts o) :
    (∃ ts', o = .ok (none, ts')) ∧ (h = .skip ∨ h = .skipWarn) ∨ o = .err .invalidInstance ∧ h = .error := by
  have htb : ∀ blocks : List (List (Nat × Bytes)), blocks.flatten = rows.zipIdx.map (fun x => (x.2, x.1)) →
      ∀ b ∈ blocks, ∀ x ∈ b, TokOk cfg.tok x.2 := by
    intro blocks hb b hbm x hx
    exact htok _ (List.mem_of_getElem? ((mem_blocks rows blocks hb x.1 x.2).1 ⟨b, hbm, hx⟩))
  have hbb : ∀ blocks : List (List (Nat × Bytes)), blocks.flatten = rows.zipIdx.map (fun x => (x.2, x.1)) →
      ∃ b ∈ blocks, ∃ x ∈ b, ¬ RowGood cfg cols x.2 := by
    intro blocks hb
    obtain ⟨row, hr, hn⟩ := hbad
    obtain ⟨i, hi⟩ := List.mem_iff_getElem?.1 hr
    obtain ⟨b, hbm, hx⟩ := (mem_blocks rows blocks hb i row).2 hi
    exact ⟨b, hbm, (i, row), hx, hn⟩
  cases ho with
  | finished blocks ws ts' hb hw he hts =>
    obtain ⟨b, hbm, hx⟩ := hbb blocks hb
    have hend := taskRun_bad cfg h cols hmode b t (htb blocks hb b hbm) hx
    rcases hmode with ⟨he', hh⟩ | ⟨he', hh⟩
    · left
      have hne : h ≠ .error := by rcases hh with rfl | rfl <;> simp
      rw [if_neg hne] at hend
      refine ⟨⟨ts', ?_⟩, hh⟩
      have : blocks.any (fun b => (taskRun cfg h cols b t).2 == .skipped) = true := by
        rw [List.any_eq_true]
        exact ⟨b, hbm, by simp [hend]⟩
      rw [this]; rfl
    · rw [if_pos hh] at hend
      rcases he b hbm with h' | h' <;> rw [hend] at h' <;> simp at h'
  | threw blocks b e hb hm he =>
    rcases taskRun_end cfg h cols hmode b t (htb blocks hb b hm) with ⟨_, h1⟩ | ⟨_, h1⟩
    · rw [he] at h1; simp at h1
    · rw [he] at h1
      rcases hmode with ⟨_, hh⟩ | ⟨_, hh⟩
      · have hne : h ≠ .error := by rcases hh with rfl | rfl <;> simp
        rw [if_neg hne] at h1; simp at h1
      · rw [if_pos hh] at h1
        injection h1 with h1
        subst h1
        exact Or.inr ⟨rfl, hh⟩
  | ub blocks ws w hb hw hu =>
    rcases hu with hu | ⟨b, hbm, hu⟩
    · obtain ⟨ts1, hw1, _⟩ :=
        writeAll_spec ws ts (prl_bound cfg h cols t rows ts hlen hcols blocks ws hb hw)
      rw [hw1] at hu
      simp at hu
    · rcases taskRun_end cfg h cols hmode b t (htb blocks hb b hbm) with ⟨_, h1⟩ | ⟨_, h1⟩
      · rw [hu] at h1; simp at h1
      · rw [hu] at h1
        split at h1 <;> simp at h1

theorem decodeFields_no_ub (cfg : RowCfg) (o : Res Unit) (hno : ∀ w, o ≠ .ub w) (cols : List (CsvCol V))
    (fs : List (Bytes × Bool)) (idx tsr : Nat) (w : String) :
    (decodeFields cfg o cols fs idx tsr).out ≠ .ub w := by
  have hb : badRow cfg ≠ .ub w := by unfold badRow; split <;> simp
  induction fs generalizing cols idx tsr with
  | nil =>
    simp only [decodeFields, fieldsEnd]
    rcases o with ⟨⟩ | e | w'
    · cases cols <;> simp [hb]
    · simp
    · exact absurd rfl (hno w')
  | cons f fs ih =>
    cases cols with
    | nil =>
      simp only [decodeFields, fieldsMore]
      split
      · rcases o with ⟨⟩ | e | w'
        · exact hb
        · simp
        · exact absurd rfl (hno w')
      · simp
    | cons c cs =>
      rw [decodeFields]
      split
      · exact ih _ _ _
      · split
        · exact hb
        · split
          · exact ih _ _ _
          · exact hb

theorem decodeRow_no_ub (cfg : RowCfg) (cols : List (CsvCol V)) (t : Tok) (row : Bytes) (w : String) :
    (decodeRow cfg cols t row).out ≠ .ub w := by
  have := decodeFields_no_ub cfg (tokenize cfg.tok row).2 (fun w => tokenize_no_ub _ _ w) cols
    (tokenize cfg.tok row).1 0 0 w
  rw [← decodeRow_sum cfg cols t row] at this
  exact this

theorem taskRun_no_ub (cfg : RowCfg) (h : BadHandling) (cols : List (CsvCol V)) :
    ∀ (b : List (Nat × Bytes)) (t : Tok) (w : String), (taskRun cfg h cols b t).2 ≠ .ub w := by
  intro b
  induction b with
  | nil => intro t w; simp [taskRun]
  | cons x b ih =>
    obtain ⟨idx, row⟩ := x
    intro t w
    simp only [taskRun]
    split
    · simp
    · rename_i w' hw'
      exact absurd hw' (decodeRow_no_ub cfg cols t row w')
    · exact ih _ w
    · split <;> simp

/-- No write is outside of the tensors, whatever the rows are. -/
theorem decodeSer_no_ub (cfg : RowCfg) (h : BadHandling) (cols : List (CsvCol V)) :
    ∀ (rows : List Bytes) (t : Tok) (idx : Nat) (ts : Tensors V),
    idx + rows.length ≤ ts.rows → ts.cols = (usedCols cols).length →
    ∀ w, decodeSer cfg h cols rows t idx ts ≠ .ub w := by
  intro rows
  induction rows with
  | nil => intro t idx ts _ _ w; simp [decodeSer]
  | cons row rows ih =>
    intro t idx ts hlen hcols w
    have hlen' : idx + 1 + rows.length ≤ ts.rows := by simpa [Nat.add_assoc, Nat.add_comm 1] using hlen
    have hwb : ∀ w ∈ (decodeRow cfg cols t row).writes.map (fun w => (idx, w)),
        w.2.1 < ts.cols ∧ w.1 < ts.rows := by
      intro w hw
      obtain ⟨w', hw', rfl⟩ := List.mem_map.1 hw
      exact ⟨by rw [hcols]; exact decodeRow_bound cfg cols t row w' hw', by simp; omega⟩
    obtain ⟨ts1, hw1, hc1, hr1, _⟩ := writeAll_spec _ ts hwb
    simp only [decodeSer, hw1]
    split
    · simp
    · rename_i w' hw'
      exact absurd hw' (decodeRow_no_ub cfg cols t row w')
    · exact ih _ _ _ (by omega) (by rw [hc1, hcols]) w
    · split
      · simp
      · split
        · exact ih _ _ _ (by omega) (by rw [hc1, hcols]) w
        · simp

theorem decodePrl_no_ub (cfg : RowCfg) (h : BadHandling) (cols : List (CsvCol V)) (t : Tok) (rows : List Bytes)
    (ts : Tensors V) (hlen : rows.length ≤ ts.rows) (hcols : ts.cols = (usedCols cols).length) (w : String) :
    ¬ DecodePrl cfg h cols t rows ts (.ub w) := by
  intro ho
  cases ho with
  | ub blocks ws w hb hw hu =>
    rcases hu with hu | ⟨b, hbm, hu⟩
    · obtain ⟨ts1, hw1, _⟩ :=
        writeAll_spec ws ts (prl_bound cfg h cols t rows ts hlen hcols blocks ws hb hw)
      rw [hw1] at hu
      simp at hu
    · exact taskRun_no_ub cfg h cols b t w hu

/-- There always is a parallel execution. -/
theorem decodePrl_exists (cfg : RowCfg) (h : BadHandling) (cols : List (CsvCol V)) (t : Tok) (rows : List Bytes)
    (ts : Tensors V) (hlen : rows.length ≤ ts.rows) (hcols : ts.cols = (usedCols cols).length) :
    ∃ o, DecodePrl cfg h cols t rows ts o := by
  let b := rows.zipIdx.map (fun x => (x.2, x.1))
  have hb : [b].flatten = rows.zipIdx.map (fun x => (x.2, x.1)) := by simp [b]
  have hw : Interleaved ([b].map fun b => (taskRun cfg h cols b t).1) (taskRun cfg h cols b t).1 :=
    interleaved_single _
  obtain ⟨ts1, hw1, _⟩ := writeAll_spec _ ts (prl_bound cfg h cols t rows ts hlen hcols [b] _ hb hw)
  cases he : (taskRun cfg h cols b t).2 with
  | done => exact ⟨_, .finished [b] _ ts1 hb hw (by simp [he]) hw1⟩
  | skipped => exact ⟨_, .finished [b] _ ts1 hb hw (by simp [he]) hw1⟩
  | threw e => exact ⟨_, .threw [b] b e hb (by simp) he⟩
  | ub w => exact absurd he (taskRun_no_ub cfg h cols b t w)

end Mlio
