import Verif.Proofs.Insights

/-!
# Column statistics: C54
-/

namespace Mlio
open Spec

/-- What the statistics of a data set are made of. -/
theorem dataset_columns (t : CellTools) (nulls : List Bytes) (captured : List Nat) (limit n : Nat) (es : List TextExample)
    (he : Examples n es) : ∃ ss, analyzeDataset t nulls captured limit n es = .ok ss ∧ ss.length = n ∧
      ∀ j s, ss[j]? = some s → s = cleanUp (columnFold t nulls (if captured.contains j then some limit else none) j {} es) := by
  obtain ⟨a, b⟩ := dataset_get t nulls captured limit n es (List.replicate n {}) he.2 List.length_replicate
  refine ⟨List.map cleanUp _, ?_, (List.length_map _).trans a, ?_⟩
  · unfold analyzeDataset
    rw [if_neg (by simpa using he.1)]
  · intro j s hs
    rw [List.getElem?_map, Option.map_eq_some_iff] at hs
    obtain ⟨s', h1, rfl⟩ := hs
    have hj : j < n := by
      have := (List.getElem?_eq_some_iff.1 h1).1
      omega
    have := b j {} (by rw [List.getElem?_replicate, if_pos hj])
    rw [this] at h1
    cases h1; rfl

theorem fit_column {t : CellTools} {es : List TextExample} (hf : FitCells t es) (j : Nat) :
    ∀ e ∈ es, ∀ c ∈ e.columns.getD j [], c.length < 2 ^ 64 - 1 := by
  intro e he c hc
  rcases hj : e.columns[j]? with _ | col
  · simp [List.getD, hj] at hc
  · simp only [List.getD, hj, Option.getD_some] at hc
    exact hf.1 e he col (List.mem_of_getElem? hj) c hc

theorem isColumn_cleanUp {t : CellTools} {nulls : List Bytes} {cells : List Bytes} {s : ColStats}
    (h : IsColumn t nulls (2 ^ 64 - 1) cells s.core) (hl : ∀ c ∈ cells, c.length < 2 ^ 64 - 1) :
    IsColumn t nulls 0 cells (cleanUp s).core := by
  refine ⟨h.rows, h.empty, h.blank, h.null, h.nan, h.num, h.fin, h.int, h.least, h.greatest, ?_, h.longest, h.first, h.sample,
    h.words, h.card⟩
  simp only [cleanUp]
  rcases h.shortest with ⟨a, b⟩ | ⟨a, b⟩
  · rw [if_pos b]; exact Or.inl ⟨a, rfl⟩
  · rw [if_neg]
    · exact Or.inr ⟨a, b⟩
    · obtain ⟨c, hc, hcl⟩ := List.mem_map.1 a
      have := hl c (List.mem_filter.1 hc).1
      omega

/-- C54: for every data set without padding, however its rows are divided into examples, the counts, the extremes, the
sketches, the sample and the example value of each column are those of the whole column.  Missing: padded examples
(`C54_padding_violated`); the shortest length counts only cells that are not empty (`C54_shortest_violated`). -/
theorem C54_counts_partial (t : CellTools) (nulls : List Bytes) (captured : List Nat) (limit n : Nat) (es : List TextExample)
    (he : Examples n es) (hf : FitCells t es) (hp : ∀ e ∈ es, e.padding = 0) :
    ∃ ss, analyzeDataset t nulls captured limit n es = .ok ss ∧ ss.length = n ∧
      ∀ j s, ss[j]? = some s → IsColumn t nulls 0 (wholeColumn j es) s.core := by
  obtain ⟨ss, h1, h2, h3⟩ := dataset_columns t nulls captured limit n es he
  refine ⟨ss, h1, h2, fun j s hs => ?_⟩
  rw [h3 j s hs, wholeColumn_unpadded j es hp]
  have hfit := fit_column hf j
  have hl : ∀ c ∈ es.flatMap (fun e => e.columns.getD j []), c.length < 2 ^ 64 - 1 := by
    intro c hc
    obtain ⟨e, a, b⟩ := List.mem_flatMap.1 hc
    exact hfit e a c b
  apply isColumn_cleanUp _ hl
  rw [columnFold_core]
  exact isColumn_cells hf.2 _ _ [] {} (isColumn_new t nulls _ rfl) hl

/-- C54: the division of the rows into examples does not matter to any statistic but the two averages. -/
theorem C54_batching (t : CellTools) (nulls : List Bytes) (captured : List Nat) (limit n : Nat) (es es' : List TextExample)
    (he : Examples n es) (he' : Examples n es') (hp : ∀ e ∈ es, e.padding = 0) (hp' : ∀ e ∈ es', e.padding = 0)
    (hsame : ∀ j, wholeColumn j es = wholeColumn j es') :
    ∃ ss ss', analyzeDataset t nulls captured limit n es = .ok ss ∧ analyzeDataset t nulls captured limit n es' = .ok ss' ∧
      ss.map ColStats.core = ss'.map ColStats.core := by
  obtain ⟨ss, h1, h2, h3⟩ := dataset_columns t nulls captured limit n es he
  obtain ⟨ss', h1', h2', h3'⟩ := dataset_columns t nulls captured limit n es' he'
  refine ⟨ss, ss', h1, h1', ?_⟩
  apply List.ext_getElem (by simp [h2, h2'])
  intro j hj hj'
  simp only [List.getElem_map]
  have hj1 : j < ss.length := by simpa using hj
  have hj2 : j < ss'.length := by simpa using hj'
  rw [h3 j _ (List.getElem?_eq_getElem hj1), h3' j _ (List.getElem?_eq_getElem hj2)]
  have hc := hsame j
  rw [wholeColumn_unpadded j es hp, wholeColumn_unpadded j es' hp'] at hc
  simp only [cleanUp, columnFold_core, hc]

/-- C54: the captured values of the columns that were asked for: exact as long as there are fewer than the limit.
Missing: exact counts from the moment the limit is reached, see `C54_capture_violated`. -/
theorem C54_capture_partial (t : CellTools) (nulls : List Bytes) (captured : List Nat) (limit n : Nat) (es : List TextExample)
    (he : Examples n es) (hp : ∀ e ∈ es, e.padding = 0) :
    ∃ ss, analyzeDataset t nulls captured limit n es = .ok ss ∧
      ∀ j s, ss[j]? = some s →
        (j ∈ captured → IsCapture limit ((wholeColumn j es).filter (fun c => !Blank c)) s.core) ∧
        (j ∉ captured → s.core.captured = [] ∧ s.core.overflowed = false) := by
  obtain ⟨ss, h1, h2, h3⟩ := dataset_columns t nulls captured limit n es he
  refine ⟨ss, h1, fun j s hs => ?_⟩
  rw [h3 j s hs, wholeColumn_unpadded j es hp]
  have e1 : ∀ x : ColStats, (cleanUp x).core.captured = x.core.captured := fun _ => rfl
  have e2 : ∀ x : ColStats, (cleanUp x).core.overflowed = x.core.overflowed := fun _ => rfl
  constructor
  · intro hj
    have : captured.contains j = true := by simpa using hj
    rw [this, if_pos rfl]
    have h0 : IsCapture limit (([] : List Bytes).filter (fun c => !Blank c)) {} :=
      ⟨by simp, by simp, by simp, by simp, by simp, by simp⟩
    have := capture_cells t nulls limit (es.flatMap (fun e => e.columns.getD j [])) [] {} h0
    rw [List.nil_append] at this
    have key : (columnFold t nulls (some limit) j {} es).core =
        (es.flatMap (fun e => e.columns.getD j [])).foldl (coreCell t nulls (some limit)) {} := columnFold_core t nulls (some limit) j es {}
    rw [← key] at this
    exact ⟨this.nodup, this.sub, this.size, this.all, this.over, this.exact⟩
  · intro hj
    have : captured.contains j = false := by simpa using hj
    rw [this, e1, e2]
    simp only [Bool.false_eq_true, if_false, columnFold_core]
    exact capture_none t nulls _ _

/-- C54: the mean is that of the whole column (in exact arithmetic) if every example has a finite number in it.
Missing: other examples, see `C54_mean_violated`; rounding. -/
theorem C54_mean_partial (t : CellTools) (nulls : List Bytes) (captured : List Nat) (limit n : Nat) (es : List TextExample)
    (he : Examples n es) (hf : FitCells t es) (hp : ∀ e ∈ es, e.padding = 0) (j : Nat)
    (hn : ∀ e ∈ es, numbers t (e.columns.getD j []) ≠ []) :
    ∃ ss, analyzeDataset t nulls captured limit n es = .ok ss ∧
      ∀ s, ss[j]? = some s → s.mean = some ((numbers t (wholeColumn j es)).sum / ((numbers t (wholeColumn j es)).length : Nat)) := by
  obtain ⟨ss, h1, h2, h3⟩ := dataset_columns t nulls captured limit n es he
  refine ⟨ss, h1, fun s hs => ?_⟩
  rw [h3 j s hs, wholeColumn_unpadded j es hp]
  have := columnFold_mean t hf.2 nulls (if captured.contains j then some limit else none) j es [] {} (isColumn_new t nulls _ rfl)
    (fit_column hf j) hn (by simp [numbers, Rat.div_def])
  rw [List.nil_append] at this
  exact this

/-- C54: the average length is that of the whole column (in exact arithmetic) if no cell and no example is empty.
Missing: empty cells, see `C54_length_violated`; rounding. -/
theorem C54_length_partial (t : CellTools) (nulls : List Bytes) (captured : List Nat) (limit n : Nat) (es : List TextExample)
    (he : Examples n es) (hf : FitCells t es) (hp : ∀ e ∈ es, e.padding = 0) (j : Nat)
    (hn : ∀ e ∈ es, e.columns.getD j [] ≠ [] ∧ ∀ c ∈ e.columns.getD j [], c ≠ []) :
    ∃ ss, analyzeDataset t nulls captured limit n es = .ok ss ∧
      ∀ s, ss[j]? = some s → s.avgLen = some (((((wholeColumn j es).map List.length).sum : Nat) : Rat) / (((wholeColumn j es).length : Nat) : Rat)) := by
  obtain ⟨ss, h1, h2, h3⟩ := dataset_columns t nulls captured limit n es he
  refine ⟨ss, h1, fun s hs => ?_⟩
  rw [h3 j s hs, wholeColumn_unpadded j es hp]
  have := columnFold_avg t hf.2 nulls (if captured.contains j then some limit else none) j es [] {} (isColumn_new t nulls _ rfl)
    (fit_column hf j) hn (by simp [Rat.div_def])
  rw [List.nil_append] at this
  exact this

/-- C54: the shortest length of the whole column, if no cell is empty. -/
theorem C54_shortest_partial (t : CellTools) (nulls : List Bytes) (captured : List Nat) (limit n : Nat) (es : List TextExample)
    (he : Examples n es) (hf : FitCells t es) (hp : ∀ e ∈ es, e.padding = 0) (j : Nat) (hn : ∀ c ∈ wholeColumn j es, c ≠ []) :
    ∃ ss, analyzeDataset t nulls captured limit n es = .ok ss ∧
      ∀ s, ss[j]? = some s → IsShortest 0 ((wholeColumn j es).map List.length) s.core.minLen := by
  obtain ⟨ss, h1, h2, h3⟩ := dataset_columns t nulls captured limit n es he
  refine ⟨ss, h1, fun s hs => ?_⟩
  obtain ⟨ss', h1', _, h4⟩ := C54_counts_partial t nulls captured limit n es he hf hp
  rw [h1] at h1'
  cases h1'
  have hm : s.core.minLen = s.core.minLenNotEmpty := by
    rw [h3 j s hs]
    have := foldl_minLen t nulls (if captured.contains j then some limit else none) (es.flatMap (fun e => e.columns.getD j [])) {} rfl
    have key : (columnFold t nulls (if captured.contains j then some limit else none) j {} es).core = _ := columnFold_core t nulls _ j es {}
    simp only [cleanUp, key]
    rw [this]
  rw [hm]
  have := (h4 j s hs).shortest
  have hfil : (wholeColumn j es).filter (fun c => !c.isEmpty) = wholeColumn j es := by
    rw [List.filter_eq_self]
    intro c hc; simpa using hn c hc
  rw [hfil] at this
  exact this

/-- The number that Python sees under a name. -/
def reported (name : String) (s : ColStats) : Option Nat := ((exported s).find? (fun kv => kv.1 = name)).map (·.2)

/-- C54: the numbers of rows, of finite numbers and of others as Python sees them. Missing: the number of finite ones if
there are infinite ones, see `C54_finite_violated`. -/
theorem C54_reported_partial (t : CellTools) (nulls : List Bytes) (z : Nat) (cells : List Bytes) (s : ColStats)
    (h : IsColumn t nulls z cells s.core) :
    reported "rows_seen" s = some cells.length ∧
    (∃ k, reported "numeric_nan_count" s = some k ∧ CountIs (fun c => ¬ Blank c ∧ t.parse c = .bad) cells k) ∧
    (∃ k, reported "numeric_count" s = some k ∧ CountIs (fun c => ¬ Blank c ∧ t.parse c ≠ .bad) cells k) ∧
    (∃ k, reported "string_empty_count" s = some k ∧ CountIs (fun c => c = []) cells k) ∧
    reported "numeric_int_count" s = some ((numbers t cells).filter t.isInt).length ∧
    ((∀ c ∈ cells, Blank c = true ∨ t.parse c ≠ .inf) → reported "numeric_finite_count" s = some (numbers t cells).length) := by
  refine ⟨?_, ⟨s.core.nanCount, rfl, h.nan⟩, ⟨s.core.numCount, rfl, h.num⟩, ⟨s.core.emptyCount, rfl, h.empty⟩, ?_, ?_⟩
  · rw [← h.rows]; rfl
  · rw [← h.int]; rfl
  · intro hn
    have hr : reported "numeric_finite_count" s = some s.core.numCount := rfl
    rw [hr]
    congr 1
    have hnum := h.num
    generalize s.core.numCount = k at hnum
    clear hr h
    induction hnum with
    | nil => rfl
    | yes c cs k hc _ ih =>
      have hcons : numbers t (c :: cs) = numbers t [c] ++ numbers t cs := numbers_append t [c] cs
      rw [hcons, numbers_one, if_neg (by simpa using hc.1), List.length_append, ih (fun x hx => hn x (by simp [hx]))]
      rcases hn c (by simp) with hb | hi
      · exact absurd hb (by simpa using hc.1)
      · cases hp : t.parse c with
        | bad => exact absurd hp hc.2
        | inf => exact absurd hp hi
        | fin q => simp; omega
    | no c cs k hc _ ih =>
      have hcons : numbers t (c :: cs) = numbers t [c] ++ numbers t cs := numbers_append t [c] cs
      rw [hcons, numbers_one, ih (fun x hx => hn x (by simp [hx]))]
      by_cases hb : Blank c = true
      · rw [if_pos hb]; rfl
      · rw [if_neg hb]
        cases hp : t.parse c with
        | bad => rfl
        | inf => exact absurd ⟨by simpa using hb, by simp [hp]⟩ hc
        | fin q => exact absurd ⟨by simpa using hb, by simp [hp]⟩ hc

/-- Single digits are numbers, and so is infinity, written `i`. -/
def exTools : CellTools where
  parse c := match c with
    | [x] => if x = 105 then .inf else match digit? x with
      | some n => .fin n
      | none => .bad
    | _ => .bad
  isInt _ := true
  hash c := c.foldl (fun h x => (h * 31 + x.toNat) % 2 ^ 32) 7

theorem exTools_hash : ∀ c, exTools.hash c < 2 ^ 32 := by
  have : ∀ (c : Bytes) (h : Nat), h < 2 ^ 32 → c.foldl (fun h x => (h * 31 + x.toNat) % 2 ^ 32) h < 2 ^ 32 := by
    intro c
    induction c with
    | nil => intro h hh; exact hh
    | cons x c ih => intro h _; exact ih _ (Nat.mod_lt _ (by decide))
  intro c; exact this c 7 (by decide)

/-- Two columns in two examples: `1 2 | 5` and `a, "b c" | NA`. -/
def exExamples : List TextExample :=
  [⟨[[[49], [50]], [[97], [98, 32, 99]]], 0⟩, ⟨[[[53]], [[78, 65]]], 0⟩]

example : Examples 2 exExamples ∧ FitCells exTools exExamples ∧ (∀ e ∈ exExamples, e.padding = 0) ∧
    (∀ e ∈ exExamples, numbers exTools (e.columns.getD 0 []) ≠ []) ∧
    (∀ e ∈ exExamples, e.columns.getD 1 [] ≠ [] ∧ ∀ c ∈ e.columns.getD 1 [], c ≠ []) :=
  ⟨⟨by simp [exExamples], by simp [exExamples]⟩, ⟨by simp [exExamples], exTools_hash⟩, by simp [exExamples], by decide, by decide⟩

/-- The average of a column of one split, for the counterexamples. -/
def meanOf (es : List TextExample) : Option Rat := (columnFold exTools [] none 0 {} es).mean

def avgLenOf (es : List TextExample) : Option Rat := (columnFold exTools [] none 0 {} es).avgLen

/-- C54 fails for the mean: the numbers 1 and 3 have the mean 2 in one example, but if an example without a number comes
between them it is NaN. -/
theorem C54_mean_violated : ∃ es es' : List TextExample, wholeColumn 0 es = wholeColumn 0 es' ∧
    meanOf es = some 2 ∧ meanOf es' = none :=
  ⟨[⟨[[[49], [120], [51]]], 0⟩], [⟨[[[49]]], 0⟩, ⟨[[[120]]], 0⟩, ⟨[[[51]]], 0⟩], by decide, by decide +kernel, by decide +kernel⟩

/-- C54 fails for the average length if there are empty cells: it depends on the division into examples. -/
theorem C54_length_violated : ∃ es es' : List TextExample, wholeColumn 0 es = wholeColumn 0 es' ∧
    avgLenOf es = some (4 / 3) ∧ avgLenOf es' = some 2 :=
  ⟨[⟨[[[97, 97], [], [97, 97]]], 0⟩], [⟨[[[97, 97]]], 0⟩, ⟨[[[], [97, 97]]], 0⟩], by decide, by decide +kernel, by decide +kernel⟩

/-- C54 fails for captured values once there are as many as the limit: `a b a a` with the limit 2 counts `a` once. -/
theorem C54_capture_violated :
    let s := (columnFold exTools [] (some 2) 0 {} [⟨[[[97], [98], [97], [97]]], 0⟩]).core
    s.captured = [([97], 1), ([98], 1)] ∧ s.overflowed = false := by
  decide +kernel

/-- C54 fails for the shortest length: an empty cell is not counted. -/
theorem C54_shortest_violated :
    (cleanUp (columnFold exTools [] none 0 {} [⟨[[[], [97, 97]]], 0⟩])).core.minLen = 2 := by
  decide +kernel

/-- C54 fails for the number of finite numbers that Python sees: infinite ones are counted. -/
theorem C54_finite_violated : (numbers exTools (wholeColumn 0 [⟨[[[49], [105]]], 0⟩])).length = 1 ∧
    reported "numeric_finite_count" (cleanUp (columnFold exTools [] none 0 {} [⟨[[[49], [105]]], 0⟩])) = some 2 := by
  decide +kernel

/-- C54 fails for padded examples: the padding is counted as rows with empty cells. -/
theorem C54_padding_violated : wholeColumn 0 [⟨[[[97], [], []]], 2⟩] = [[97]] ∧
    (columnFold exTools [] none 0 {} [⟨[[[97], [], []]], 2⟩]).core.rows = 3 ∧
    (columnFold exTools [] none 0 {} [⟨[[[97], [], []]], 2⟩]).core.emptyCount = 2 := by
  decide +kernel

end Mlio
