import Verif.Proofs.ToDict
import Verif.Props.Insights
import Verif.Props.PyError

/-!
# `ColumnAnalysis.to_dict`: C102
-/

namespace Mlio
open Spec

theorem isText_iff (b : Bytes) : (pyStr b).isSome = true ↔ ∃ s, IsText b s := by
  constructor
  · intro h
    obtain ⟨s, hs⟩ := Option.isSome_iff_exists.mp h
    exact ⟨s, pyStr_some hs⟩
  · intro ⟨s, hs⟩
    rw [pyStr_of_isText hs]; rfl

theorem toDict_isSome (nth : List Rat → Nat → List Rat) (est : Hll → Nat) (s : ColStats) :
    (toDict nth est s).1.isSome = true ↔ (∃ t, IsText s.core.exampleValue t) ∧ ∀ k ∈ s.core.captured, ∃ t, IsText k.1 t := by
  rw [← isText_iff]
  have : (∀ k ∈ s.core.captured, ∃ t, IsText k.1 t) ↔ s.core.captured.all (fun kv => (pyStr kv.1).isSome) = true := by
    rw [List.all_eq_true]
    exact ⟨fun h k hk => (isText_iff _).mpr (h k hk), fun h k hk => (isText_iff _).mp (h k hk)⟩
  rw [this, ← Bool.and_eq_true]
  unfold toDict
  split
  · rename_i h; simp only [h]; simp
  · rename_i h; simp only [h]; simp

/-- The dictionary, if there is one. -/
theorem toDict_some {nth : List Rat → Nat → List Rat} {est : Hll → Nat} {s : ColStats} {d : List (String × DictVal)}
    (h : (toDict nth est s).1 = some d) :
    d = (exported s).map (fun kv => (kv.1, DictVal.text (decimal kv.2))) ++
        (exportedReals s).map (fun kv => (kv.1, DictVal.text (fixed6 kv.2))) ++
        [("example_value", .text s.core.exampleValue), ("string_cardinality", .int (est s.core.card)),
          ("string_vocab_cardinality", .int (est s.core.vocab)), ("string_captured_unique_values", .counts s.core.captured),
          ("string_captured_unique_values_overflowed", .flag s.core.overflowed),
          ("numeric_finite_median_approx", .real (medianApprox nth s).1)] := by
  unfold toDict at h
  split at h
  · exact (Option.some.inj h).symm
  · simp at h

/-- A call changes nothing but the order of the sample. -/
theorem toDict_after {nth : List Rat → Nat → List Rat} (hn : NthOk nth) (est : Hll → Nat) (s : ColStats) :
    (toDict nth est s).2.core.sample.Perm s.core.sample ∧
    (toDict nth est s).2 = { s with core := { s.core with sample := (toDict nth est s).2.core.sample } } := by
  unfold toDict
  split
  · exact ⟨(medianApprox_spec hn s).2.1, (medianApprox_spec hn s).2.2⟩
  · exact ⟨List.Perm.refl _, rfl⟩

theorem afterDicts_spec {nth : List Rat → Nat → List Rat} (hn : NthOk nth) (est : Hll → Nat) (k : Nat) (s : ColStats) :
    (afterDicts nth est k s).core.sample.Perm s.core.sample ∧
    afterDicts nth est k s = { s with core := { s.core with sample := (afterDicts nth est k s).core.sample } } := by
  induction k generalizing s with
  | zero => exact ⟨List.Perm.refl _, rfl⟩
  | succ k ih =>
    obtain ⟨h1, h2⟩ := ih (toDict nth est s).2
    obtain ⟨h3, h4⟩ := toDict_after hn est s
    refine ⟨h1.trans h3, ?_⟩
    show afterDicts nth est k (toDict nth est s).2 = _
    show _ = { s with core := { s.core with sample := (afterDicts nth est k (toDict nth est s).2).core.sample } }
    generalize (toDict nth est s).2 = u at h2 h4 ⊢
    generalize (afterDicts nth est k u).core.sample = l at h2 ⊢
    rw [h2]
    generalize u.core.sample = l' at h4
    subst h4
    rfl

/-- Statistics that differ in the order of the sample have the same dictionary. -/
theorem toDict_perm {nth : List Rat → Nat → List Rat} (hn : NthOk nth) (est : Hll → Nat) (s : ColStats) (l : List Rat)
    (hp : l.Perm s.core.sample) :
    (toDict nth est { s with core := { s.core with sample := l } }).1 = (toDict nth est s).1 := by
  have h1 := (medianApprox_spec hn s).1
  have h2 := (medianApprox_spec hn { s with core := { s.core with sample := l } }).1
  have hm := median_unique (median_perm hp h2) h1
  unfold toDict
  simp only [exported, exportedReals]
  split
  · rw [hm]
  · rfl

/-- **C102**: `to_dict` gives a dictionary if and only if the example value and the captured values are UTF-8; otherwise it
raises an error. -/
theorem C102_defined_partial (nth : List Rat → Nat → List Rat) (est : Hll → Nat) (s : ColStats) :
    (∃ d, (toDict nth est s).1 = some d) ↔ (∃ t, IsText s.core.exampleValue t) ∧ ∀ k ∈ s.core.captured, ∃ t, IsText k.1 t := by
  rw [← toDict_isSome nth est, Option.isSome_iff_exists]

/-- **C102**: however often `to_dict` was called, it gives the same as the first time, and the statistics are the same but
for the order of the sample. -/
theorem C102_repeat {nth : List Rat → Nat → List Rat} (hn : NthOk nth) (est : Hll → Nat) (s : ColStats) (k : Nat) :
    (toDict nth est (afterDicts nth est k s)).1 = (toDict nth est s).1 ∧
    (afterDicts nth est k s).core.sample.Perm s.core.sample ∧
    afterDicts nth est k s = { s with core := { s.core with sample := (afterDicts nth est k s).core.sample } } := by
  obtain ⟨h1, h2⟩ := afterDicts_spec hn est k s
  refine ⟨?_, h1, h2⟩
  rw [h2]
  exact toDict_perm hn est s _ h1

/-- The names in the dictionary. -/
theorem toDict_names {nth : List Rat → Nat → List Rat} {est : Hll → Nat} {s : ColStats} {d : List (String × DictVal)}
    (h : (toDict nth est s).1 = some d) : d.map (·.1) =
      ["rows_seen", "numeric_count", "numeric_finite_count", "numeric_nan_count", "numeric_int_count", "string_empty_count",
        "string_min_length", "string_min_length_not_empty", "string_max_length", "string_only_whitespace_count",
        "string_null_like_count", "string_num_words", "numeric_finite_mean", "numeric_finite_min", "numeric_finite_max",
        "string_avg_length", "example_value", "string_cardinality", "string_vocab_cardinality",
        "string_captured_unique_values", "string_captured_unique_values_overflowed", "numeric_finite_median_approx"] := by
  rw [toDict_some h]; rfl

/-- A number among the statistics of the data set and its text in the dictionary. -/
theorem toDict_count {nth : List Rat → Nat → List Rat} {est : Hll → Nat} {s : ColStats} {d : List (String × DictVal)}
    (h : (toDict nth est s).1 = some d) (name : String) (n : Nat) (hr : reported name s = some n) :
    dictGet d name = some (.text (decimal n)) := by
  rw [toDict_some h]
  unfold reported at hr
  unfold dictGet
  obtain ⟨kv, h1, h2⟩ := Option.map_eq_some_iff.mp hr
  rw [List.append_assoc, List.find?_append, List.find?_map]
  have : ((fun kv : String × DictVal => decide (kv.1 = name)) ∘ fun kv : String × Nat => (kv.1, DictVal.text (decimal kv.2))) =
      fun kv : String × Nat => decide (kv.1 = name) := rfl
  rw [this, h1, ← h2]
  rfl

/-- **C102**: the counts and lengths are in the dictionary, written in decimal digits: how many rows there are, how many of
them are empty, how many have a number, how many have none, how many have only white space, how many say that there is no
value, how many numbers are integers, and how long the longest cell is. -/
theorem C102_counts {t : CellTools} {nulls : List Bytes} {z : Nat} {cells : List Bytes} {s : ColStats} (hc : IsColumn t nulls z cells s.core)
    {nth : List Rat → Nat → List Rat} {est : Hll → Nat} {d : List (String × DictVal)} (h : (toDict nth est s).1 = some d) :
    (∃ b, dictGet d "rows_seen" = some (.text b) ∧ IsNumeral b cells.length) ∧
    (∃ b n, dictGet d "string_empty_count" = some (.text b) ∧ IsNumeral b n ∧ CountIs (fun c => c = []) cells n) ∧
    (∃ b n, dictGet d "numeric_count" = some (.text b) ∧ IsNumeral b n ∧ CountIs (fun c => ¬ Blank c ∧ t.parse c ≠ .bad) cells n) ∧
    (∃ b n, dictGet d "numeric_nan_count" = some (.text b) ∧ IsNumeral b n ∧ CountIs (fun c => ¬ Blank c ∧ t.parse c = .bad) cells n) ∧
    (∃ b n, dictGet d "string_only_whitespace_count" = some (.text b) ∧ IsNumeral b n ∧ CountIs (fun c => c ≠ [] ∧ Blank c) cells n) ∧
    (∃ b n, dictGet d "string_null_like_count" = some (.text b) ∧ IsNumeral b n ∧ CountIs (fun c => ¬ Blank c ∧ NullLike nulls c) cells n) ∧
    (∃ b, dictGet d "numeric_int_count" = some (.text b) ∧ IsNumeral b ((numbers t cells).filter t.isInt).length) ∧
    (∃ b n, dictGet d "string_max_length" = some (.text b) ∧ IsNumeral b n ∧
      IsLongest ((cells.filter (fun c => !c.isEmpty)).map List.length) n) ∧
    (∃ b n, dictGet d "string_min_length_not_empty" = some (.text b) ∧ IsNumeral b n ∧
      IsShortest z ((cells.filter (fun c => !c.isEmpty)).map List.length) n) ∧
    (∃ b wss, dictGet d "string_num_words" = some (.text b) ∧ wss.length = cells.length ∧ (∀ p ∈ cells.zip wss, IsWords p.1 p.2) ∧
      IsNumeral b (wss.map List.length).sum) := by
  refine ⟨⟨_, toDict_count h _ _ rfl, ?_⟩, ⟨_, _, toDict_count h _ _ rfl, decimal_spec _, hc.empty⟩,
    ⟨_, _, toDict_count h _ _ rfl, decimal_spec _, hc.num⟩, ⟨_, _, toDict_count h _ _ rfl, decimal_spec _, hc.nan⟩,
    ⟨_, _, toDict_count h _ _ rfl, decimal_spec _, hc.blank⟩, ⟨_, _, toDict_count h _ _ rfl, decimal_spec _, hc.null⟩,
    ⟨_, toDict_count h _ _ rfl, ?_⟩, ⟨_, _, toDict_count h _ _ rfl, decimal_spec _, hc.longest⟩,
    ⟨_, _, toDict_count h _ _ rfl, decimal_spec _, hc.shortest⟩, ?_⟩
  · rw [hc.rows]; exact decimal_spec _
  · rw [hc.int]; exact decimal_spec _
  · obtain ⟨wss, h1, h2, h3, _⟩ := hc.words
    refine ⟨_, wss, toDict_count h _ _ rfl, h1, h2, ?_⟩
    rw [h3]; exact decimal_spec _

/-- What is written for a number that may be NaN. -/
def RealText (b : Bytes) : Option Rat → Prop
  | none => b = [110, 97, 110]
  | some q => IsFixed6 b q

theorem fixed6_text (q : Option Rat) : RealText (fixed6 q) q := by
  cases q with
  | none => rfl
  | some q => exact fixed6_spec q

/-- **C102**: the smallest and the greatest number and the two averages are in the dictionary with six decimals, `nan` if
there is none.  Missing: smaller differences, see `C102_decimals_violated`. -/
theorem C102_reals_partial {t : CellTools} {nulls : List Bytes} {z : Nat} {cells : List Bytes} {s : ColStats} (hc : IsColumn t nulls z cells s.core)
    {nth : List Rat → Nat → List Rat} {est : Hll → Nat} {d : List (String × DictVal)} (h : (toDict nth est s).1 = some d) :
    (∃ b q, dictGet d "numeric_finite_min" = some (.text b) ∧ RealText b q ∧ IsLeast (numbers t cells) q) ∧
    (∃ b q, dictGet d "numeric_finite_max" = some (.text b) ∧ RealText b q ∧ IsGreatest (numbers t cells) q) ∧
    (∃ b, dictGet d "numeric_finite_mean" = some (.text b) ∧ RealText b s.mean) ∧
    (∃ b, dictGet d "string_avg_length" = some (.text b) ∧ RealText b s.avgLen) := by
  rw [toDict_some h]
  exact ⟨⟨_, _, rfl, fixed6_text _, hc.least⟩, ⟨_, _, rfl, fixed6_text _, hc.greatest⟩, ⟨_, rfl, fixed6_text _⟩, ⟨_, rfl, fixed6_text _⟩⟩

/-- **C102**: the median in the dictionary is that of the first ten thousand numbers of the column, also if `to_dict` was
called before. -/
theorem C102_median {t : CellTools} {nulls : List Bytes} {z : Nat} {cells : List Bytes} {s : ColStats} (hc : IsColumn t nulls z cells s.core)
    {nth : List Rat → Nat → List Rat} (hn : NthOk nth) (est : Hll → Nat) (k : Nat) {d : List (String × DictVal)}
    (h : (toDict nth est (afterDicts nth est k s)).1 = some d) :
    ∃ m, dictGet d "numeric_finite_median_approx" = some (.real m) ∧ IsMedian ((numbers t cells).take 10000) m := by
  rw [(C102_repeat hn est s k).1] at h
  rw [toDict_some h]
  refine ⟨_, rfl, ?_⟩
  rw [← hc.sample]
  exact (medianApprox_spec hn s).1

/-- **C102**: the example value is the first cell; the captured values and whether there were too many are as they were
counted; the numbers of distinct cells and words are the estimates from sketches of all of them. -/
theorem C102_values {t : CellTools} {nulls : List Bytes} {z : Nat} {cells : List Bytes} {s : ColStats} (hc : IsColumn t nulls z cells s.core)
    {nth : List Rat → Nat → List Rat} {est : Hll → Nat} {d : List (String × DictVal)} (h : (toDict nth est s).1 = some d) :
    dictGet d "example_value" = some (.text (cells.headD [])) ∧
    dictGet d "string_captured_unique_values" = some (.counts s.core.captured) ∧
    dictGet d "string_captured_unique_values_overflowed" = some (.flag s.core.overflowed) ∧
    (∃ c, dictGet d "string_cardinality" = some (.int (est c)) ∧ IsSketch 16 (fun h => ∃ c ∈ cells, c ≠ [] ∧ h = t.hash c) c) ∧
    (∃ c wss, dictGet d "string_vocab_cardinality" = some (.int (est c)) ∧ wss.length = cells.length ∧
      (∀ p ∈ cells.zip wss, IsWords p.1 p.2) ∧ IsSketch 16 (fun h => ∃ ws ∈ wss, ∃ w ∈ ws, h = t.hash w) c) := by
  rw [toDict_some h, ← hc.first]
  obtain ⟨wss, h1, h2, _, h4⟩ := hc.words
  exact ⟨rfl, rfl, rfl, ⟨_, rfl, hc.card⟩, ⟨_, wss, rfl, h1, h2, h4⟩⟩

/-- Into a sorted list. -/
def insertRat (a : Rat) : List Rat → List Rat
  | [] => [a]
  | b :: l => if a ≤ b then a :: b :: l else b :: insertRat a l

theorem insertRat_perm (a : Rat) (l : List Rat) : (insertRat a l).Perm (a :: l) := by
  induction l with
  | nil => exact List.Perm.refl _
  | cons b l ih =>
    unfold insertRat
    split
    · exact List.Perm.refl _
    · exact (ih.cons b).trans (List.Perm.swap a b l)

theorem insertRat_sorted (a : Rat) (l : List Rat) (h : l.Pairwise (· ≤ ·)) : (insertRat a l).Pairwise (· ≤ ·) := by
  induction l with
  | nil => simp [insertRat]
  | cons b l ih =>
    rw [List.pairwise_cons] at h
    unfold insertRat
    split
    · rename_i hab
      refine List.pairwise_cons.mpr ⟨?_, List.pairwise_cons.mpr h⟩
      intro y hy
      rcases List.mem_cons.mp hy with rfl | hy
      · exact hab
      · exact Rat.le_trans hab (h.1 y hy)
    · rename_i hab
      refine List.pairwise_cons.mpr ⟨?_, ih h.2⟩
      intro y hy
      rcases List.mem_cons.mp ((insertRat_perm a l).mem_iff.mp hy) with rfl | hy
      · exact (Rat.le_total).resolve_left hab
      · exact h.1 y hy

/-- A selection by sorting. -/
def exNth (l : List Rat) (_ : Nat) : List Rat := l.foldr insertRat []

theorem exNth_spec (l : List Rat) (n : Nat) : (exNth l n).Perm l ∧ (exNth l n).Pairwise (· ≤ ·) := by
  unfold exNth
  induction l with
  | nil => exact ⟨List.Perm.refl _, List.Pairwise.nil⟩
  | cons a l ih => exact ⟨(insertRat_perm a _).trans (ih.1.cons a), insertRat_sorted a _ ih.2⟩

theorem exNth_ok : NthOk exNth := by
  intro l n _
  obtain ⟨hp, hs⟩ := exNth_spec l n
  refine ⟨hp, ?_⟩
  intro x hx
  obtain ⟨hlt, hx⟩ := List.getElem?_eq_some_iff.mp hx
  rw [List.pairwise_iff_getElem] at hs
  constructor
  · intro y hy
    obtain ⟨i, hi, rfl⟩ := List.mem_iff_getElem.mp hy
    rw [List.length_take] at hi
    rw [List.getElem_take, ← hx]
    simpa using hs i n (by omega) hlt (by omega)
  · intro y hy
    obtain ⟨i, hi, rfl⟩ := List.mem_iff_getElem.mp hy
    rw [List.length_drop] at hi
    rw [List.getElem_drop, ← hx]
    simpa using hs n (n + 1 + i) hlt (by omega) (by omega)

/-- The statistics of the first column of the data set in `Props/Insights.lean`: `1`, `2` and `5`. -/
def exStats : ColStats := cleanUp (columnFold exTools [] none 0 {} exExamples)

-- They meet the hypotheses of the theorems above, and the median is 2, also when it is asked for again.
example : IsColumn exTools [] 0 (wholeColumn 0 exExamples) exStats.core ∧
    ((toDict exNth (fun _ => 0) exStats).1.bind (dictGet · "numeric_finite_median_approx")) = some (.real (some 2)) ∧
    ((toDict exNth (fun _ => 0) (afterDicts exNth (fun _ => 0) 2 exStats)).1.bind (dictGet · "numeric_finite_mean")) =
      some (.text [50, 46, 54, 54, 54, 54, 54, 55]) := by
  refine ⟨?_, by decide +kernel, by decide +kernel⟩
  obtain ⟨ss, h1, h2, h3⟩ := C54_counts_partial exTools [] [] 0 2 exExamples ⟨by simp [exExamples], by simp [exExamples]⟩
    ⟨by simp [exExamples], exTools_hash⟩ (by simp [exExamples])
  obtain ⟨ss', h1', h2', h3'⟩ := dataset_columns exTools [] [] 0 2 exExamples ⟨by simp [exExamples], by simp [exExamples]⟩
  rw [h1] at h1'
  cases h1'
  have h0 : ss[0]? = some ss[0] := List.getElem?_eq_getElem (by omega)
  have := h3 0 _ h0
  rw [h3' 0 _ h0] at this
  exact this

/-- C102 fails for cells that are not UTF-8: the data set was analysed, but `to_dict` raises an error. -/
theorem C102_utf8_violated :
    (toDict exNth (fun _ => 0) (cleanUp (columnFold exTools [] none 0 {} [⟨[[[0xC3, 0x28]]], 0⟩]))).1 = none := by
  decide +kernel

/-- C102 fails for small numbers: every number between zero and half a millionth is shown as zero. -/
theorem C102_decimals_violated (q : Rat) (h0 : 0 ≤ q) (h : 2 * 10 ^ 6 * q < 1) : fixed6 (some q) = fixed6 (some 0) := by
  have hd : (0 : Rat) < q.den := Rat.natCast_pos.mpr q.den_pos
  have hn : ¬ q < 0 := Rat.not_lt.mpr h0
  have hnum : 2 * (q.num.natAbs * 10 ^ 6) < q.den := by
    have h1 := Rat.mul_lt_mul_of_pos_right h hd
    have h2 := rat_abs_mul_den q
    have h3 : q.abs = q := by unfold Rat.abs; rw [if_pos h0]
    rw [h3] at h2
    apply Rat.natCast_lt_natCast.mp
    rw [Rat.natCast_mul, Rat.natCast_mul, ← h2]
    have e1 : ((2 : Nat) : Rat) = 2 := rfl
    have e2 : ((10 ^ 6 : Nat) : Rat) = 10 ^ 6 := rfl
    rw [e1, e2]
    grind
  have hr : roundEven (q.num.natAbs * 10 ^ 6) q.den = 0 := by
    unfold roundEven
    rw [Nat.mod_eq_of_lt (by omega), if_pos hnum, Nat.div_eq_of_lt (by omega)]
  have h00 : ¬ (0 : Rat) < 0 := Rat.lt_irrefl
  unfold fixed6
  simp only [hr, if_neg hn, if_neg h00]
  rfl

-- One ten-millionth is such a number, and it is not zero.
example : (0 : Rat) ≤ 1 / 10 ^ 7 ∧ 2 * 10 ^ 6 * (1 / 10 ^ 7 : Rat) < 1 ∧ (1 / 10 ^ 7 : Rat) ≠ 0 ∧
    fixed6 (some (1 / 10 ^ 7)) = [48, 46, 48, 48, 48, 48, 48, 48] := by decide +kernel

end Mlio
