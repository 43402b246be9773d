import Verif.Proofs.Warnings
import Verif.Props.CsvDecode
import Verif.Props.PyError
import Verif.Props.Instances

/-! # C90: warnings -/

namespace Mlio
open Spec Machine

variable {V : Type}

/-- **C90**: the messages about a row, if its fields can be told apart: which of its used fields were cut, if that is to be told, and – if warnings about
bad rows are wanted – the first thing that is wrong with it.  (Something is wrong with exactly the rows that are not well-formed.) -/
theorem C90_row (cfg : RowCfg) (cols : List (CsvCol V)) (t : Tok) (row : Bytes) (ht : (tokenize cfg.tok row).2 = .ok ()) :
    rowWarnings cfg cols t row = cutFields cfg.limit cols (tokenize cfg.tok row).1 ++
      (if cfg.warnBad then (rowFault cfg.limit cols (tokenize cfg.tok row).1).toList else []) ∧
    ((∃ f, rowFault cfg.limit cols (tokenize cfg.tok row).1 = some f) ↔ (decodeRow cfg cols t row).out ≠ .ok true) := by
  refine ⟨rowWarnings_eq cfg cols t row ht, ?_⟩
  rw [rowFault_some, decodeRow_out cfg cols t row ht]
  split
  · rename_i h; simp [h]
  · rename_i h; simp [h, badRow_ne]

theorem goodRows_insts (tok : TokParams) (limit : FieldLimit) (warnBad : Bool) (h : BadHandling) (cols : List (CsvCol V)) (is : List Inst)
    (hi : ∀ i ∈ is, (tokenize tok (i.bits.getD [])).2 = .ok ()) :
    (goodRows (RowCfg.of tok limit warnBad h) cols (is.map fun i => i.bits.getD [])).length =
      (is.filter fun i => decide (GoodRow tok limit cols i)).length := by
  unfold goodRows
  rw [List.filter_map, List.length_map]
  congr 1
  apply List.filter_congr
  intro i hm
  simp only [Function.comp_apply, decide_eq_decide]
  exact ⟨fun h => h.2, fun h => ⟨hi i hm, h⟩⟩

/-- **C90**, when bad rows are left out: there are the messages about all rows in their order; with `pad_warn` then one about the example, with the
number of its bad rows, if there are any. -/
theorem C90_pad (tok : TokParams) (limit : FieldLimit) (warnBad : Bool) (h : BadHandling) (hh : h = .pad ∨ h = .padWarn)
    (cols : List (CsvCol V)) (dflt : V) (q : Batch Inst) (hlen : q.instances.length ≤ q.size)
    (hi : ∀ i ∈ q.instances, (tokenize tok (i.bits.getD [])).2 = .ok ())
    (msgs : List CsvMsg) (hm : CsvLogs tok limit warnBad h cols dflt q msgs) :
    msgs = q.instances.flatMap (rowMessages tok limit warnBad cols) ++
      (if h = .padWarn ∧ ∃ i ∈ q.instances, ¬ GoodRow tok limit cols i then
        [.padded q.index (q.instances.filter fun i => decide (¬ GoodRow tok limit cols i)).length] else []) := by
  unfold CsvLogs at hm
  rw [if_pos (by rcases hh with rfl | rfl <;> rfl)] at hm
  obtain ⟨ts', e, _⟩ := decodeSer_spec (RowCfg.of tok limit warnBad h) h cols (q.instances.map fun i => i.bits.getD []) (Tok.init []) 0
    (makeTensors cols dflt q.size) (by
      intro row hr
      obtain ⟨i, him, rfl⟩ := List.mem_map.1 hr
      exact hi i him) (fun _ => ⟨by rcases hh with rfl | rfl <;> rfl, hh⟩) (by simpa [makeTensors] using hlen) rfl
  rw [e, goodRows_insts tok limit warnBad h cols _ hi, Nat.zero_add] at hm
  rw [hm, serWarnings_pad tok limit warnBad h hh cols _ hi]
  congr 1
  simp only [exampleWarning]
  have hsum : q.instances.length = (q.instances.filter fun i => decide (GoodRow tok limit cols i)).length +
      (q.instances.filter fun i => decide (¬ GoodRow tok limit cols i)).length := by
    generalize q.instances = l
    induction l with
    | nil => rfl
    | cons i is ih =>
      by_cases hg : GoodRow tok limit cols i
      · rw [List.filter_cons_of_pos (by simpa using hg), List.filter_cons_of_neg (by simpa using hg), List.length_cons, List.length_cons]
        omega
      · rw [List.filter_cons_of_neg (by simpa using hg), List.filter_cons_of_pos (by simpa using hg), List.length_cons, List.length_cons]
        omega
  have hbad : (∃ i ∈ q.instances, ¬ GoodRow tok limit cols i) ↔
      q.instances.length ≠ (q.instances.filter fun i => decide (GoodRow tok limit cols i)).length := by
    rw [hsum]
    constructor
    · rintro ⟨i, him, hb⟩ hx
      have : 0 < (q.instances.filter fun i => decide (¬ GoodRow tok limit cols i)).length :=
        List.length_pos_iff_exists_mem.2 ⟨i, List.mem_filter.2 ⟨him, by simpa using hb⟩⟩
      omega
    · intro hx
      have : 0 < (q.instances.filter fun i => decide (¬ GoodRow tok limit cols i)).length := by omega
      obtain ⟨i, h⟩ := List.length_pos_iff_exists_mem.1 this
      obtain ⟨h1, h2⟩ := List.mem_filter.1 h
      exact ⟨i, h1, by simpa using h2⟩
  by_cases hx : q.instances.length ≠ (q.instances.filter fun i => decide (GoodRow tok limit cols i)).length
  · rw [if_pos hx]
    by_cases hp : h = .padWarn
    · rw [if_pos hp, if_pos ⟨hp, hbad.2 hx⟩]
      have : q.instances.length - (q.instances.filter fun i => decide (GoodRow tok limit cols i)).length =
          (q.instances.filter fun i => decide (¬ GoodRow tok limit cols i)).length := by omega
      rw [this]
    · rw [if_neg hp, if_neg (fun h => hp h.1)]
  · rw [if_neg hx, if_neg (fun h => hx (hbad.1 h.2))]

/-- **C90**, partial, when a bad row makes the example be skipped or raises, without parallel decoding: there are the messages about the rows up to
the first bad one; with `skip_warn` then one about the example.

Partial: `warn_bad_instances` asks for a warning about each bad row, see `C90_each_violated`. -/
theorem C90_stops_partial (tok : TokParams) (limit : FieldLimit) (warnBad : Bool) (h : BadHandling) (hh : h = .error ∨ h = .skip ∨ h = .skipWarn)
    (cols : List (CsvCol V)) (dflt : V) (q : Batch Inst) (hlen : q.instances.length ≤ q.size)
    (hser : cols.length * q.instances.length < 10000000)
    (hi : ∀ i ∈ q.instances, (tokenize tok (i.bits.getD [])).2 = .ok ())
    (msgs : List CsvMsg) (hm : CsvLogs tok limit warnBad h cols dflt q msgs) :
    msgs = (upToBad tok limit cols q.instances).flatMap (rowMessages tok limit warnBad cols) ++
      (if h = .skipWarn ∧ ∃ i ∈ q.instances, ¬ GoodRow tok limit cols i then [.skipped q.index] else []) := by
  unfold CsvLogs at hm
  rw [if_pos (by simp [runSerial, hser])] at hm
  rw [hm, serWarnings_stops tok limit warnBad h (by rcases hh with rfl | rfl | rfl <;> simp) cols _ hi, tillBad_eq]
  congr 1
  have htok : ∀ row ∈ q.instances.map (fun i => i.bits.getD []), TokOk (RowCfg.of tok limit warnBad h).tok row := by
    intro row hr
    obtain ⟨i, him, rfl⟩ := List.mem_map.1 hr
    exact hi i him
  have hgood : ∀ i ∈ q.instances, (RowGood (RowCfg.of tok limit warnBad h) cols (i.bits.getD []) ↔ GoodRow tok limit cols i) :=
    fun i him => ⟨fun h => h.2, fun h => ⟨hi i him, h⟩⟩
  by_cases hbad : ∃ i ∈ q.instances, ¬ GoodRow tok limit cols i
  · have hmode : ((RowCfg.of tok limit warnBad h).errorBad = false ∧ (h = .skip ∨ h = .skipWarn)) ∨
        ((RowCfg.of tok limit warnBad h).errorBad = true ∧ h = .error) := by
      rcases hh with rfl | rfl | rfl <;> simp [RowCfg.of]
    have := decodeSer_stops (RowCfg.of tok limit warnBad h) h cols hmode (q.instances.map fun i => i.bits.getD []) (Tok.init []) 0
      (makeTensors cols dflt q.size) htok (by
        obtain ⟨i, him, hb⟩ := hbad
        exact ⟨_, List.mem_map.2 ⟨i, him, rfl⟩, fun hx => hb ((hgood i him).1 hx)⟩) (by simpa [makeTensors] using hlen) rfl
    rcases this with ⟨⟨ts', e⟩, _⟩ | ⟨e, rfl⟩
    · rw [e]
      simp only [exampleWarning]
      by_cases hs : h = .skipWarn
      · rw [if_pos hs, if_pos ⟨hs, hbad⟩]
      · rw [if_neg hs, if_neg (fun h => hs h.1)]
    · rw [e]; simp
  · have hall : ∀ i ∈ q.instances, GoodRow tok limit cols i := by
      intro i him
      exact Decidable.byContradiction fun hb => hbad ⟨i, him, hb⟩
    obtain ⟨ts', e, _⟩ := decodeSer_spec (RowCfg.of tok limit warnBad h) h cols (q.instances.map fun i => i.bits.getD []) (Tok.init []) 0
      (makeTensors cols dflt q.size) htok (by
        rintro ⟨row, hr, hb⟩
        obtain ⟨i, him, rfl⟩ := List.mem_map.1 hr
        exact absurd ((hgood i him).2 (hall i him)) hb) (by simpa [makeTensors] using hlen) rfl
    rw [e, goodRows_insts tok limit warnBad h cols _ hi, Nat.zero_add, List.filter_eq_self.2 (by simpa using hall)]
    simp [exampleWarning, hbad]

/-- **C90**, partial, the same with parallel decoding, under every schedule: the messages are those about some rows, among them a bad one if there is one,
and all rows if there is none; no message is given twice. -/
theorem C90_parallel_partial (tok : TokParams) (limit : FieldLimit) (warnBad : Bool) (h : BadHandling) (hh : h = .skip ∨ h = .skipWarn)
    (cols : List (CsvCol V)) (dflt : V) (q : Batch Inst) (hprl : 10000000 ≤ cols.length * q.instances.length)
    (hi : ∀ i ∈ q.instances, (tokenize tok (i.bits.getD [])).2 = .ok ())
    (msgs : List CsvMsg) (hm : CsvLogs tok limit warnBad h cols dflt q msgs) :
    ∃ reached : List Inst, reached.Sublist q.instances ∧
      ((∃ i ∈ q.instances, ¬ GoodRow tok limit cols i) → ∃ i ∈ reached, ¬ GoodRow tok limit cols i) ∧
      ((∀ i ∈ q.instances, GoodRow tok limit cols i) → reached = q.instances) ∧
      ∃ ms, ms.Perm (reached.flatMap (rowMessages tok limit warnBad cols)) ∧
        msgs = ms ++ (if h = .skipWarn ∧ ∃ i ∈ q.instances, ¬ GoodRow tok limit cols i then [.skipped q.index] else []) := by
  unfold CsvLogs at hm
  rw [if_neg (by rcases hh with rfl | rfl <;> simp [runSerial] <;> omega)] at hm
  obtain ⟨blocks, ms, hb, hint, hthrow, rfl⟩ := hm
  have hsub : ∀ b ∈ blocks, ∀ i ∈ b, i ∈ q.instances := by
    intro b hbm i him
    rw [← hb]
    exact List.mem_flatten.2 ⟨b, hbm, him⟩
  have hend : ∀ b ∈ blocks, ((taskRun (RowCfg.of tok limit warnBad h) h cols (b.map fun i => (0, i.bits.getD [])) (Tok.init [])).2 = .skipped ↔
      ∃ i ∈ b, ¬ GoodRow tok limit cols i) := by
    intro b hbm
    have hgood : ∀ i ∈ b, (RowGood (RowCfg.of tok limit warnBad h) cols (i.bits.getD []) ↔ GoodRow tok limit cols i) :=
      fun i him => ⟨fun h => h.2, fun h => ⟨hi i (hsub b hbm i him), h⟩⟩
    rcases taskRun_end (RowCfg.of tok limit warnBad h) h cols (by rcases hh with rfl | rfl <;> simp [RowCfg.of])
      (b.map fun i => (0, i.bits.getD [])) (Tok.init []) (by
        intro x hx
        obtain ⟨i, him, rfl⟩ := List.mem_map.1 hx
        exact hi i (hsub b hbm i him)) with ⟨h1, h2⟩ | ⟨h1, h2⟩
    · rw [h2]
      simp only [reduceCtorEq, false_iff, not_exists, not_and]
      intro i him hx
      exact hx ((hgood i him).1 (h1 _ (List.mem_map.2 ⟨i, him, rfl⟩)))
    · rw [h2, if_neg (by rcases hh with rfl | rfl <;> simp)]
      simp only [true_iff]
      obtain ⟨x, hx, hbad⟩ := h1
      obtain ⟨i, him, rfl⟩ := List.mem_map.1 hx
      exact ⟨i, him, fun hg => hbad ((hgood i him).2 hg)⟩
  have hany : (blocks.any (fun b => (taskRun (RowCfg.of tok limit warnBad h) h cols (b.map fun i => (0, i.bits.getD [])) (Tok.init [])).2 == .skipped) = true) ↔
      ∃ i ∈ q.instances, ¬ GoodRow tok limit cols i := by
    rw [List.any_eq_true]
    constructor
    · rintro ⟨b, hbm, hx⟩
      obtain ⟨i, him, hbad⟩ := (hend b hbm).1 (by simpa using hx)
      exact ⟨i, hsub b hbm i him, hbad⟩
    · rintro ⟨i, him, hbad⟩
      rw [← hb] at him
      obtain ⟨b, hbm, him⟩ := List.mem_flatten.1 him
      exact ⟨b, hbm, by simpa using (hend b hbm).2 ⟨i, him, hbad⟩⟩
  refine ⟨(blocks.map (upToBad tok limit cols)).flatten, ?_, ?_, ?_, ms, ?_, ?_⟩
  · rw [← hb]
    clear hb hint hthrow hsub hend hany
    induction blocks with
    | nil => exact List.Sublist.refl _
    | cons b bs ih =>
      rw [List.map_cons, List.flatten_cons, List.flatten_cons]
      exact List.Sublist.append (List.take_sublist _ _) ih
  · rintro ⟨i, him, hbad⟩
    rw [← hb] at him
    obtain ⟨b, hbm, him⟩ := List.mem_flatten.1 him
    have hlt : b.findIdx (fun i => decide (¬ GoodRow tok limit cols i)) < b.length :=
      List.findIdx_lt_length_of_exists ⟨i, him, by simpa using hbad⟩
    refine ⟨b[b.findIdx (fun i => decide (¬ GoodRow tok limit cols i))], ?_, by
      have := List.findIdx_getElem (p := fun i => decide (¬ GoodRow tok limit cols i)) (w := hlt)
      simpa using this⟩
    refine List.mem_flatten.2 ⟨_, List.mem_map.2 ⟨b, hbm, rfl⟩, ?_⟩
    unfold upToBad
    rw [List.mem_take_iff_getElem]
    exact ⟨_, by omega, rfl⟩
  · intro hall
    rw [← hb]
    congr 1
    refine (List.map_congr_left ?_).trans (List.map_id _)
    intro b hbm
    unfold upToBad
    rw [List.findIdx_eq_length.2 (by
      intro i him
      simpa using hall i (hsub b hbm i him))]
    exact List.take_of_length_le (by omega)
  · refine (interleaved_flatten_perm hint).trans ?_
    rw [List.flatMap_def, List.map_flatten, List.flatten_flatten, List.map_map, List.map_map]
    refine List.Perm.of_eq (congrArg List.flatten (List.map_congr_left ?_))
    intro b hbm
    rw [taskWarnings_eq tok limit warnBad h cols b (fun i him => hi i (hsub b hbm i him)), tillBad_eq, List.flatMap_def]
    rfl
  · congr 1
    by_cases hbad : ∃ i ∈ q.instances, ¬ GoodRow tok limit cols i
    · rw [if_pos (hany.2 hbad)]
      simp only [exampleWarning]
      by_cases hs : h = .skipWarn
      · rw [if_pos hs, if_pos ⟨hs, hbad⟩]
      · rw [if_neg hs, if_neg (fun h => hs h.1)]
    · rw [if_neg (fun hx => hbad (hany.1 hx)), if_neg (fun h => hbad h.2)]
      simp [exampleWarning]

/-- `1,x` and `2,y` in a table of two columns of digits. -/
def twoBad : Batch Inst := ⟨7, [⟨0, 0, some [49, 44, 120]⟩, ⟨0, 1, some [50, 44, 121]⟩, ⟨0, 2, some [51]⟩], 4⟩

/-- **C90 is violated**: if bad rows make the example be skipped, there is a warning about the first of them only. -/
theorem C90_each_violated : CsvLogs {} .treatAsBad true .skip [digitCol, digitCol] 0 twoBad [.row 0 0 (.unparsable 1 [120])] ∧
    ¬ GoodRow {} .treatAsBad [digitCol, digitCol] ⟨0, 1, some [50, 44, 121]⟩ :=
  ⟨rfl, by decide⟩

/-- The hypotheses of `C90_row`, `C90_pad` and `C90_stops_partial` hold, and what they say. -/
example : (∀ i ∈ twoBad.instances, (tokenize {} (i.bits.getD [])).2 = .ok ()) ∧
    CsvLogs {} .treatAsBad true .padWarn [digitCol, digitCol] 0 twoBad
      [.row 0 0 (.unparsable 1 [120]), .row 0 1 (.unparsable 1 [121]), .row 0 2 (.columns 1 2), .padded 7 3] ∧
    CsvLogs {} .treatAsBad true .skipWarn [digitCol, digitCol] 0 twoBad [.row 0 0 (.unparsable 1 [120]), .skipped 7] ∧
    CsvLogs { maxField := some 1 } .truncateWarn false .pad [digitCol] 0 ⟨0, [⟨3, 5, some [49, 50]⟩], 1⟩ [.row 3 5 (.tooLong 0 [49])] :=
  ⟨by decide, rfl, rfl, rfl⟩

/-- The hypotheses of `C90_parallel_partial` hold: a batch of enough rows is decoded in parallel and has messages. -/
example (q : Batch Inst) (hq : q.instances = List.replicate 10000000 ⟨0, 0, some [49]⟩) :
    10000000 ≤ [digitCol].length * q.instances.length ∧ (∀ i ∈ q.instances, (tokenize {} (i.bits.getD [])).2 = .ok ()) ∧
    CsvLogs {} .treatAsBad true .skip [digitCol] 0 q [] := by
  have hi : ∀ i ∈ q.instances, i = ⟨0, 0, some [49]⟩ := by
    intro i hi
    rw [hq] at hi
    exact List.eq_of_mem_replicate hi
  have hok : ∀ i ∈ q.instances, (tokenize {} (i.bits.getD [])).2 = .ok () := by
    intro i h
    rw [hi i h]; decide
  have hg : ∀ i ∈ q.instances, RowGood (RowCfg.of {} .treatAsBad true .skip) [digitCol] (i.bits.getD []) := by
    intro i h
    rw [hi i h]; decide
  have hlen : 10000000 ≤ q.instances.length := by rw [hq, List.length_replicate]; exact Nat.le_refl _
  refine ⟨by simpa using hlen, hok, ?_⟩
  unfold CsvLogs
  have ht : taskRun (RowCfg.of {} .treatAsBad true .skip) .skip [digitCol] (q.instances.map fun i => (0, i.bits.getD [])) (Tok.init []) = _ :=
    taskRun_good _ _ _ _ _ (by
      intro x hx
      obtain ⟨i, him, rfl⟩ := List.mem_map.1 hx
      exact hg i him)
  have hw : taskWarnings (RowCfg.of {} .treatAsBad true .skip) [digitCol] q.instances (Tok.init []) = [] := by
    rw [taskWarnings_eq _ _ _ _ _ _ hok, List.flatMap_eq_nil_iff]
    intro i h
    rw [tillBad_eq] at h
    rw [hi i (List.mem_of_mem_take h)]
    decide
  rw [if_neg (by simp [runSerial]; omega)]
  refine ⟨[q.instances], [], by simp, ?_, ?_, ?_⟩
  · exact .nil _ (by simp [hw])
  · intro b hb e
    rw [List.mem_singleton] at hb
    rw [hb, ht]
    simp
  · simp [ht, exampleWarning]

/-! ## The handler -/

/-- **C90**: a message reaches the handler exactly if there is one and the level is to be logged. -/
theorem C90_level (c : LogCfg) (l : LogLevel) : c.calls l = true ↔ c.handler = true ∧ l ∈ levelsAt c.level := by
  obtain ⟨h, lv⟩ := c
  cases h <;> cases lv <;> cases l <;> decide

/-- **C90**, partial: if warnings are to be logged when the reader is made and when it reads, all messages reach the handler; if not when it reads,
none does; and whether bad rows are warned about is what was asked for.

Partial: the level when the reader was made must be the one when it reads, see `C90_level_later_violated`. -/
theorem C90_delivered_partial (made now : LogCfg) (asked : Bool) (msgs : List CsvMsg) :
    (LogLevel.warning ∈ levelsAt made.level → warnFlag asked made = asked) ∧
    (now.handler = true → LogLevel.warning ∈ levelsAt now.level → now.delivers msgs = msgs) ∧
    (now.handler = false ∨ now.level = .off → now.delivers msgs = []) := by
  obtain ⟨h, lv⟩ := now
  obtain ⟨h', lv'⟩ := made
  refine ⟨?_, ?_, ?_⟩
  · intro hm; cases lv' <;> simp_all [levelsAt, warnFlag, LogCfg.enabled, LogLevel.rank]
  · intro hh hm; cases lv <;> simp_all [levelsAt, LogCfg.delivers, LogCfg.calls, LogCfg.enabled, LogLevel.rank]
  · intro hm; cases lv <;> cases h <;> simp_all [LogCfg.delivers, LogCfg.calls, LogCfg.enabled, LogLevel.rank]

/-- **C90 is violated**: a reader that is made while nothing is to be logged never warns about bad rows, though warnings about them are asked for and
all warnings are to be logged when it reads. -/
theorem C90_level_later_violated (h : BadHandling) (hh : h = .skip ∨ h = .pad) (msgs : List CsvMsg)
    (hm : CsvLogs {} .treatAsBad (warnFlag true ⟨true, .off⟩) h [digitCol, digitCol] 0 twoBad msgs) :
    (⟨true, .warning⟩ : LogCfg).delivers msgs = [] ∧ ¬ GoodRow {} .treatAsBad [digitCol, digitCol] ⟨0, 0, some [49, 44, 120]⟩ := by
  refine ⟨?_, by decide⟩
  rcases hh with rfl | rfl
  · have : msgs = [] := hm
    subst this; rfl
  · have : msgs = [] := hm
    subst this; rfl

/-- **C90**, last batches: reading a batch gives a warning exactly if it is not full, not empty, and that is asked for. -/
theorem C90_last_batch {α : Type} (m : Machine α) (b : Nat) (h : LastHandling) (s : m.σ) (n : Nat) (xs : List α)
    (hy : m.Yields s xs (.ok none)) :
    batchMessages b h m (s, n) = if 0 < xs.length ∧ xs.length < b ∧ (h = .dropWarn ∨ h = .padWarn) then [.warning] else [] := by
  unfold batchMessages
  by_cases hl : xs.length < b
  · obtain ⟨s', e, _⟩ := batchLoop_short b [] (by simp) hy hl
    rw [e]
    simp only [failTail, List.nil_append]
    cases xs with
    | nil => simp
    | cons x xs =>
      have : (x :: xs).length ≠ b := by omega
      simp only [List.isEmpty_cons, ne_eq, this, not_false_eq_true, hl, true_and]
      simp only [List.length_cons] at this hl
      simp [this, hl]
  · obtain ⟨s', e, _⟩ := batchLoop_enough b [] hy (by omega)
    rw [e]
    simp only [List.nil_append]
    have : (xs.take b).length = b := by rw [List.length_take]; omega
    rw [if_neg (by simp [this]), if_neg (by omega)]

/-- The hypotheses of `C90_last_batch` hold. -/
example : (listMachine [5]).Yields [6, 7, 8] [6, 7, 8] (.ok none) ∧
    batchMessages 2 .dropWarn (listMachine [5]) ([6, 7, 8], 0) = [] ∧ batchMessages 2 .dropWarn (listMachine [5]) ([8], 1) = [.warning] :=
  ⟨listMachine_yields _ _, rfl, rfl⟩

/-! ## Python -/

/-- **C90**, partial: a message about a value that cannot be parsed reaches Python if the names and the value are texts, and the value has at most 64
bytes.

Partial: see `C90_python_violated`. -/
theorem C90_python_partial (store name typ value : Bytes) (index : Nat) (s1 s2 s3 s4 s5 : String) (h1 : IsText store s1) (h2 : IsText name s2)
    (h3 : IsText typ s3) (h4 : IsText value s4) (h5 : IsText (decimal index) s5) (hl : value.length ≤ 64) :
    pyLogged [unparsableText store index name typ value] =
      ["The column '" ++ s2 ++ "' of the row #" ++ s5 ++ " in the data store '" ++ s1 ++ "' cannot be parsed as " ++ s3 ++
        ". Its string value is '" ++ s4 ++ "'."] := by
  have key : ∀ s : String, IsText s.toUTF8.data.toList s := fun s => rfl
  have : IsText (unparsableText store index name typ value) ("The column '" ++ s2 ++ "' of the row #" ++ s5 ++ " in the data store '" ++ s1 ++
      "' cannot be parsed as " ++ s3 ++ ". Its string value is '" ++ s4 ++ "'.") := by
    unfold unparsableText
    rw [List.take_of_length_le hl]
    exact isText_append (isText_append (isText_append (isText_append (isText_append (isText_append (isText_append (isText_append
      (isText_append (isText_append (key _) h2) (key _)) h5) (key _)) h1) (key _)) h3) (key _)) h4) (key _)
  simp [pyLogged, pyStr_of_isText this]

/-- **C90 is violated**: the message about a text of 65 bytes with an `é` at its end is lost, because the text is cut inside that character. -/
theorem C90_python_violated : ∃ value s, IsText value s ∧ value.length = 65 ∧
    pyLogged [unparsableText [102] 0 [97] [105, 110, 116, 51, 50] value] = [] := by
  refine ⟨List.replicate 63 97 ++ [0xC3, 0xA9], String.ofList (List.replicate 63 'a' ++ ['é']), ?_, by decide, ?_⟩
  · unfold IsText; decide +kernel
  · decide +kernel

end Mlio
