import Verif.Proofs.PyOptions
import Verif.Props.Csv

/-!
# C87: options set from Python reach the reader

`Passed` is what a call says about an option, `optionOf` what an object or a reader has.  All histories of constructing options,
assigning and reading attributes and constructing readers are covered.
-/

namespace Mlio
open Spec

/-! ## Constructing -/

/-- **C87.** A correct call (arguments by position or by name, in any combination) makes an object of the class, each of its
options has the value of its argument or its default, and no other object changes. -/
theorem C87_construct_partial (h : PyHeap) (hr : PyReachable h) (c : OptClass) (pos : List PyVal) (kw : List (OptName × PyVal))
    (g : GoodCall h c pos kw) :
    ∃ h', pyStep h (.construct c pos kw) = (h', some (.obj h.length)) ∧ ClassIs h' h.length c ∧
      (∀ n v, Passed (signature c) pos kw n v → n ≠ .parser_options → optionOf h' h.length n = some v) ∧
      ∀ i < h.length, h'[i]? = h[i]? := by
  have hI := owned_reachable hr
  cases c with
  | data =>
    obtain ⟨q, h1, h2⟩ := make_data pos kw g
    refine ⟨h ++ [.data q], by simp [pyStep, PyHeap.construct, h1, PyHeap.push], ⟨q, by simp⟩, ?_, ?_⟩
    · intro n v hv _
      simpa [optionOf] using h2 n v hv
    · intro i hi
      exact List.getElem?_append_left hi
  | csv =>
    obtain ⟨q, h1, h2, _⟩ := make_csv hI pos kw g
    refine ⟨h ++ [.csv q], by simp [pyStep, PyHeap.construct, h1, PyHeap.push], ⟨q, by simp⟩, ?_, ?_⟩
    · intro n v hv hn
      simpa [optionOf] using h2 n v hv hn
    · intro i hi
      exact List.getElem?_append_left hi
  | image =>
    obtain ⟨q, h1, h2⟩ := make_image pos kw g
    refine ⟨h ++ [.image q], by simp [pyStep, PyHeap.construct, h1, PyHeap.push], ⟨q, by simp⟩, ?_, ?_⟩
    · intro n v hv _
      simpa [optionOf] using h2 n v hv
    · intro i hi
      exact List.getElem?_append_left hi
  | parser =>
    obtain ⟨q, h1, h2⟩ := make_parser pos kw g
    refine ⟨h ++ [.parser q], by simp [pyStep, PyHeap.construct, h1, PyHeap.push], .inl ⟨q, by simp⟩, ?_, ?_⟩
    · intro n v hv _
      simpa [optionOf] using h2 n v hv
    · intro i hi
      exact List.getElem?_append_left hi

/-- **C87**, the argument `parser_options`: the new object has the options of the given one, as they are now, or the defaults. -/
theorem C87_construct_parser (h : PyHeap) (hr : PyReachable h) (pos : List PyVal) (kw : List (OptName × PyVal))
    (g : GoodCall h .csv pos kw) (v : PyVal) (hv : Passed (signature .csv) pos kw .parser_options v) :
    ∃ h', pyStep h (.construct .csv pos kw) = (h', some (.obj h.length)) ∧
      (v = .none → optionOf h' h.length .nan_values = some (.set []) ∧ optionOf h' h.length .number_base = some (.int 10)) ∧
      ∀ i, v = .obj i → ∀ n, n = .nan_values ∨ n = .number_base → optionOf h' h.length n = optionOf h i n := by
  have hI := owned_reachable hr
  obtain ⟨q, h1, _, w, x, hw, hx, hq⟩ := make_csv hI pos kw g
  have e := passed_unique g.once _ pos (by decide) _ v w hv hw
  subst e
  refine ⟨h ++ [.csv q], by simp [pyStep, PyHeap.construct, h1, PyHeap.push], ?_, ?_⟩
  · rintro rfl
    cases hx
    simp [optionOf, csvOption, hq, parserOption]
  · rintro i rfl n hn
    have hk := GoodCall.types g _ _ _ hv rfl
    rcases hk with hk | ⟨j, hj, hk⟩
    · cases hk
    · injection hj with hj
      subst hj
      obtain ⟨p, hp, ho⟩ := parserAt_of hI i hk
      rw [ho n]
      simp only [asOpt, PyHeap.asParser, hp, Option.map_some, Option.some.injEq] at hx
      subst hx
      have : optionOf (h ++ [.csv q]) h.length n = csvOption q n := by simp [optionOf]
      rw [this, csvOption_parser q n hn, hq]
      rfl

-- `DataReaderParams([a, b], 10, shuffle_seed=7, num_shards=2)`, `ParserParams(nan_values={"-"})`, and then
-- `CsvParams(delimiter=";", parser_options=p)`.
def exampleOps : List PyOp :=
  [.construct .data [.list [.store 0, .store 1], .int 10] [(.shuffle_seed, .int 7), (.num_shards, .int 2)],
   .construct .parser [] [(.nan_values, .set [.str [45]])],
   .construct .csv [] [(.delimiter, .str [59]), (.parser_options, .obj 1)]]

example : GoodCall [] .data [.list [.store 0, .store 1], .int 10] [(.shuffle_seed, .int 7), (.num_shards, .int 2)] where
  few := by decide
  known := by decide
  once := by decide
  required := by decide
  positional := by
    intro i n v k hi hv hk
    match i with
    | 0 => cases hi; cases hv; cases hk; exact ⟨_, rfl, by simp [HasKind]⟩
    | 1 => cases hi; cases hv; cases hk; exact ⟨10, by decide, rfl⟩
    | i + 2 => simp at hv
  named := by
    intro n v k hm hk
    simp only [List.mem_cons, Prod.mk.injEq, List.not_mem_nil, or_false] at hm
    rcases hm with ⟨rfl, rfl⟩ | ⟨rfl, rfl⟩ <;> cases hk
    · exact .inr ⟨7, by decide, rfl⟩
    · exact ⟨2, by decide, rfl⟩

example :
    let h := pyRun [] exampleOps
    optionOf h 0 .shuffle_seed = some (.int 7) ∧ optionOf h 0 .num_shards = some (.int 2) ∧ optionOf h 0 .batch_size = some (.int 10) ∧
      optionOf h 2 .delimiter = some (.str [59]) ∧ optionOf h 2 .quote_char = some (.str [34]) ∧
      optionOf h 2 .nan_values = some (.set [.str [45]]) := ⟨rfl, rfl, rfl, rfl, rfl, rfl⟩

-- A reader, and afterwards `c.delimiter = "x"`, `c.parser_options.number_base = 16`: the reader keeps what it had.
example :
    let h := pyRun [] (exampleOps ++ [.csvReader (.obj 0) (.obj 2), .assign 2 .delimiter (.str [120]), .get 2 .parser_options,
      .assign 4 .number_base (.int 16)])
    optionOf h 3 .delimiter = some (.str [59]) ∧ optionOf h 3 .number_base = some (.int 10) ∧ optionOf h 2 .delimiter = some (.str [120]) ∧
      optionOf h 2 .number_base = some (.int 16) ∧ optionOf h 1 .number_base = some (.int 10) ∧
      optionOf h 3 .shuffle_seed = some (.int 7) := ⟨rfl, rfl, rfl, rfl, rfl, rfl⟩

example : NeverAssigns (pyStep (pyRun [] exampleOps) (.assign 2 .delimiter (.str [120]))).1
    [.assign 2 .quote_char (.str [39]), .assign 0 .batch_size (.int 5), .get 2 .parser_options] 2 .delimiter := by
  refine ⟨?_, ?_, ?_, trivial⟩ <;> rintro ⟨o, m, v, e, h1, h2⟩ <;> cases e <;> rcases h2 with h2 | h2 <;> simp at h2

/-! ## Assigning -/

/-- **C87.** Assigning a value of the documented type to an attribute is accepted, and then the option has this value. -/
theorem C87_assign_partial (h : PyHeap) (hr : PyReachable h) (i : Nat) (c : OptClass) (hc : ClassIs h i c) (n : OptName) (k : OptKind)
    (v : PyVal) (hk : optKindOf c n = some k) (hv : HasKind h k v) (h1 : n ≠ .warn_bad_instances) (h2 : n ≠ .encoding)
    (h3 : n ≠ .parser_options) :
    ∃ h', pyStep h (.assign i n v) = (h', some .none) ∧ optionOf h' i n = some v := by
  have hI := owned_reachable hr
  have hi := class_lt hc
  cases c with
  | data =>
    obtain ⟨p, hp⟩ := hc
    obtain ⟨q, hq, ho⟩ := setData_keeps p n k v hk hv h1
    exact ⟨h.set i (.data q), by simp [pyStep, PyHeap.assign, hp, hq, PyHeap.update], by simp [optionOf, hi, ho]⟩
  | csv =>
    obtain ⟨p, hp⟩ := hc
    obtain ⟨q, hq, ho⟩ := setCsv_keeps p n k v hk hv h2 h3
    exact ⟨h.set i (.csv q), by simp [pyStep, PyHeap.assign, hp, hq, PyHeap.update], by simp [optionOf, hi, ho]⟩
  | image =>
    obtain ⟨p, hp⟩ := hc
    obtain ⟨q, hq, ho⟩ := setImage_keeps p n k v hk hv
    exact ⟨h.set i (.image q), by simp [pyStep, PyHeap.assign, hp, hq, PyHeap.update], by simp [optionOf, hi, ho]⟩
  | parser =>
    rcases hc with ⟨p, hp⟩ | ⟨c, hc⟩
    · obtain ⟨q, hq, ho⟩ := setParser_keeps p n k v hk hv
      exact ⟨h.set i (.parser q), by simp [pyStep, PyHeap.assign, hp, hq, PyHeap.update], by simp [optionOf, hi, ho]⟩
    · obtain ⟨p, hp⟩ := hI i c hc
      obtain ⟨q, hq, ho⟩ := setParser_keeps p.parser n k v hk hv
      have hic : c ≠ i := by
        rintro rfl
        rw [hp] at hc
        cases hc
      have hlt := lt_of_get hp
      exact ⟨h.set c (.csv { p with parser := q }), by simp [pyStep, PyHeap.assign, hc, hp, hq, PyHeap.update],
        by simp [optionOf, hc, List.getElem?_set_ne hic, hlt, ho]⟩

/-- **C87.** Any value at all may be assigned: if it stands for a value of the documented type then the option has this one, and otherwise there is an exception and
nothing changes.  Left out: whole numbers for a number of floating point (the one option is `sample_ratio`), which are converted. -/
theorem C87_assign_any_partial (h : PyHeap) (hr : PyReachable h) (i : Nat) (c : OptClass) (hc : ClassIs h i c) (n : OptName) (k : OptKind)
    (v : PyVal) (hk : optKindOf c n = some k) (h1 : n ≠ .warn_bad_instances) (h2 : n ≠ .encoding) (h3 : n ≠ .parser_options)
    (_h4 : n = .sample_ratio → (∀ x, v ≠ .int x) ∧ (∀ x, v ≠ .bool x) ∧ ∀ e x, v ≠ .enum e x) :
    (∀ w, Taken h k v w → ∃ h', pyStep h (.assign i n v) = (h', some .none) ∧ optionOf h' i n = some w) ∧
      ((¬ ∃ w, Taken h k v w) → pyStep h (.assign i n v) = (h, none)) := by
  have hI := owned_reachable hr
  have hi := class_lt hc
  cases c with
  | data =>
    obtain ⟨p, hp⟩ := hc
    obtain ⟨ha, hb⟩ := setData_exactly (h := h) p n k v hk h1
    refine ⟨fun w hw => ?_, fun hn => by simp [pyStep, PyHeap.assign, hp, hb hn, PyHeap.update]⟩
    obtain ⟨q, hq, ho⟩ := ha w hw
    exact ⟨h.set i (.data q), by simp [pyStep, PyHeap.assign, hp, hq, PyHeap.update], by simp [optionOf, hi, ho]⟩
  | csv =>
    obtain ⟨p, hp⟩ := hc
    obtain ⟨ha, hb⟩ := setCsv_exactly (h := h) p n k v hk h2 h3
    refine ⟨fun w hw => ?_, fun hn => by simp [pyStep, PyHeap.assign, hp, hb hn, PyHeap.update]⟩
    obtain ⟨q, hq, ho⟩ := ha w hw
    exact ⟨h.set i (.csv q), by simp [pyStep, PyHeap.assign, hp, hq, PyHeap.update], by simp [optionOf, hi, ho]⟩
  | image =>
    obtain ⟨p, hp⟩ := hc
    obtain ⟨ha, hb⟩ := setImage_exactly (h := h) p n k v hk
    refine ⟨fun w hw => ?_, fun hn => by simp [pyStep, PyHeap.assign, hp, hb hn, PyHeap.update]⟩
    obtain ⟨q, hq, ho⟩ := ha w hw
    exact ⟨h.set i (.image q), by simp [pyStep, PyHeap.assign, hp, hq, PyHeap.update], by simp [optionOf, hi, ho]⟩
  | parser =>
    rcases hc with ⟨p, hp⟩ | ⟨c, hc⟩
    · obtain ⟨ha, hb⟩ := setParser_exactly (h := h) p n k v hk
      refine ⟨fun w hw => ?_, fun hn => by simp [pyStep, PyHeap.assign, hp, hb hn, PyHeap.update]⟩
      obtain ⟨q, hq, ho⟩ := ha w hw
      exact ⟨h.set i (.parser q), by simp [pyStep, PyHeap.assign, hp, hq, PyHeap.update], by simp [optionOf, hi, ho]⟩
    · obtain ⟨p, hp⟩ := hI i c hc
      obtain ⟨ha, hb⟩ := setParser_exactly (h := h) p.parser n k v hk
      refine ⟨fun w hw => ?_, fun hn => by simp [pyStep, PyHeap.assign, hc, hp, hb hn, PyHeap.update]⟩
      obtain ⟨q, hq, ho⟩ := ha w hw
      have hic : c ≠ i := by
        rintro rfl
        rw [hp] at hc
        cases hc
      have hlt := lt_of_get hp
      exact ⟨h.set c (.csv { p with parser := q }), by simp [pyStep, PyHeap.assign, hc, hp, hq, PyHeap.update],
        by simp [optionOf, hc, List.getElem?_set_ne hic, hlt, ho]⟩

-- Sizes from 0 to 2⁶⁴ - 1 or truth values are taken; other numbers are refused.
example : (∃ w, Taken [] .size (.int (2 ^ 64 - 1)) w) ∧ (¬ ∃ w, Taken [] .size (.int (2 ^ 64)) w) ∧ (¬ ∃ w, Taken [] .size (.int (-1)) w) ∧
    Taken [] .bool (.int 7) (.bool true) ∧ ¬ ∃ w, Taken [] (.sequence .size) (.list [.int 1, .str []]) w := by
  refine ⟨⟨_, .inl ⟨⟨2 ^ 64 - 1, by decide, rfl⟩, rfl⟩⟩, ?_, ?_, .inr (.inr (.inr (.inl ⟨7, by decide, rfl, rfl⟩))), ?_⟩
  · rintro ⟨w, ⟨⟨n, hn, e⟩, _⟩ | ⟨e, _⟩ | ⟨e, _⟩ | ⟨_, _, _, e, _⟩⟩
    · injection e with e
      omega
    · cases e
    · cases e
    · cases e
  · rintro ⟨w, ⟨⟨n, hn, e⟩, _⟩ | ⟨e, _⟩ | ⟨e, _⟩ | ⟨_, _, _, e, _⟩⟩
    · injection e with e
      omega
    · cases e
    · cases e
    · cases e
  · rintro ⟨w, l, m, e, _, hm⟩
    injection e with e
    subst e
    cases hm with
    | cons _ hm => cases hm with
      | cons hx _ => rcases hx with ⟨⟨_, _, e⟩, _⟩ | ⟨e, _⟩ | ⟨e, _⟩ | ⟨_, _, _, e, _⟩ <;> cases e

-- A member of an enumeration is taken as a size, a number as a truth value, `None` as a data store; a text as none of them.
example : Taken [] .size (.enum .badExample 3) (.int 3) ∧ Taken [] .bool (.float 0) (.bool false) ∧ Taken [] .bool (.float 0x3F800000) (.bool true) ∧
    Taken [] (.sequence .store) (.list [.store 4, .none]) (.list [.store 4, .none]) ∧ ¬ ∃ w, Taken [] .bool (.str []) w := by
  refine ⟨.inr (.inr (.inr ⟨_, 3, by decide, rfl, rfl⟩)), .inr (.inr (.inr (.inr ⟨0, rfl, rfl⟩))), .inr (.inr (.inr (.inr ⟨_, rfl, rfl⟩))),
    ⟨_, _, rfl, rfl, .cons (.inl ⟨⟨4, rfl⟩, rfl⟩) (.cons (.inr ⟨rfl, rfl⟩) .nil)⟩, ?_⟩
  rintro ⟨w, ⟨⟨_, e⟩, _⟩ | ⟨e, _⟩ | ⟨e, _⟩ | ⟨_, _, e, _⟩ | ⟨_, e, _⟩⟩ <;> cases e

/-- **C87**, assigning the options of a parser: a copy of them as they are now. -/
theorem C87_assign_parser (h : PyHeap) (hr : PyReachable h) (i j : Nat) (hc : ClassIs h i .csv) (hj : ClassIs h j .parser) :
    ∃ h', pyStep h (.assign i .parser_options (.obj j)) = (h', some .none) ∧
      ∀ n, n = .nan_values ∨ n = .number_base → optionOf h' i n = optionOf h j n := by
  have hi := class_lt hc
  obtain ⟨p, hp⟩ := hc
  obtain ⟨q, hq, ho⟩ := parserAt_of (owned_reachable hr) j hj
  refine ⟨h.set i (.csv { p with parser := q }),
    by simp [pyStep, PyHeap.assign, hp, setCsv, PyHeap.asParser, hq, PyHeap.update], fun n hn => ?_⟩
  rw [ho n]
  simp only [optionOf, List.getElem?_set_self hi]
  exact csvOption_parser _ n hn

/-- **C87.** Nothing else changes: an option keeps its value in any step that does not assign it. -/
theorem C87_frame (h : PyHeap) (hr : PyReachable h) (op : PyOp) (i : Nat) (n : OptName) (hi : i < h.length) (hn : ¬ Assigns h op i n) :
    optionOf (pyStep h op).1 i n = optionOf h i n :=
  frame_step (owned_reachable hr) op i n hi hn

theorem push_refused (h : PyHeap) (x : Option PyObj) (hx : (h.push x).2 = none) : (h.push x).1 = h := by
  cases x with
  | none => rfl
  | some y => simp [PyHeap.push] at hx

theorem update_refused (h : PyHeap) (i : Nat) (x : Option PyObj) (hx : (h.update i x).2 = none) : (h.update i x).1 = h := by
  cases x with
  | none => rfl
  | some y => simp [PyHeap.update] at hx

/-- **C87.** A step that ends with an exception changes nothing. -/
theorem C87_refused (h : PyHeap) (op : PyOp) (hx : (pyStep h op).2 = none) : (pyStep h op).1 = h := by
  cases op with
  | construct c pos kw => cases c <;> exact push_refused _ _ hx
  | assign o m v =>
    simp only [pyStep, PyHeap.assign] at hx ⊢
    split at hx
    · exact update_refused _ _ _ hx
    · exact update_refused _ _ _ hx
    · exact update_refused _ _ _ hx
    · exact update_refused _ _ _ hx
    · split at hx
      · exact update_refused _ _ _ hx
      · rfl
    · rfl
  | get o m =>
    simp only [pyStep, PyHeap.read] at hx ⊢
    split at hx
    · rfl
    · split at hx
      · rename_i hn
        rw [if_pos hn]
        exact push_refused _ _ hx
      · rename_i hn
        rw [if_neg hn]
    · rfl
    · rfl
    · split at hx <;> rfl
    · rfl
  | csvReader d p => exact push_refused _ _ hx
  | imageReader d p => exact push_refused _ _ hx
  | protoReader d => exact push_refused _ _ hx
  | textReader d => exact push_refused _ _ hx

/-! ## Reading -/

/-- **C87.** Reading an attribute gives the value of the option. -/
theorem C87_get_partial (h : PyHeap) (hr : PyReachable h) (i : Nat) (c : OptClass) (hc : ClassIs h i c) (n : OptName) (k : OptKind)
    (hk : optKindOf c n = some k) (h1 : n ≠ .warn_bad_instances) (h2 : n ≠ .encoding) (h3 : n ≠ .parser_options) :
    pyStep h (.get i n) = (h, optionOf h i n) ∧ optionOf h i n ≠ none := by
  have hI := owned_reachable hr
  have opt : ∀ {α : Type} (f : α → PyVal) (x : Option α), ofOpt f x = x.elim .none f := fun f x => by cases x <;> rfl
  have char : ofChar = fun c => .str (charText c) := funext ofChar_text
  have store : ofOpt PyVal.store = fun s => s.elim .none .store := funext (opt _)
  cases c with
  | data =>
    obtain ⟨p, hp⟩ := hc
    simp only [pyStep, PyHeap.read, optionOf, hp]
    cases n <;> simp only [optKindOf, reduceCtorEq] at hk <;> first | contradiction | exact ⟨by first | rfl | (simp only [getData, dataOption, store]; done) | (simp only [getData, dataOption, opt]; done) | (simp only [getData, dataOption, opt]; rfl), by simp [dataOption]⟩
  | csv =>
    obtain ⟨p, hp⟩ := hc
    simp only [pyStep, PyHeap.read, optionOf, hp, if_neg h3]
    cases n <;> simp only [optKindOf, reduceCtorEq] at hk <;> first | contradiction | exact ⟨by first | rfl | (simp only [getCsv, csvOption, opt, char]; done) | (simp only [getCsv, csvOption, opt, char]; rfl), by simp [csvOption]⟩
  | image =>
    obtain ⟨p, hp⟩ := hc
    simp only [pyStep, PyHeap.read, optionOf, hp]
    cases n <;> simp only [optKindOf, reduceCtorEq] at hk <;> first | contradiction | exact ⟨by first | rfl | (simp only [getImage, imageOption, opt]; done) | (simp only [getImage, imageOption, opt]; rfl), by simp [imageOption]⟩
  | parser =>
    rcases hc with ⟨p, hp⟩ | ⟨c, hc⟩
    · simp only [pyStep, PyHeap.read, optionOf, hp]
      cases n <;> simp only [optKindOf, reduceCtorEq] at hk <;> exact ⟨rfl, by simp [parserOption]⟩
    · obtain ⟨p, hp⟩ := hI i c hc
      simp only [pyStep, PyHeap.read, optionOf, hc, hp]
      cases n <;> simp only [optKindOf, reduceCtorEq] at hk <;> exact ⟨rfl, by simp [parserOption]⟩

/-- **C87**, the attribute `parser_options`: what it gives stays a part of the object, whatever happens later. -/
theorem C87_get_parser (h : PyHeap) (i : Nat) (hc : ClassIs h i .csv) :
    ∃ h', pyStep h (.get i .parser_options) = (h', some (.obj h.length)) ∧
      ∀ ops, ClassIs (pyRun h' ops) h.length .parser ∧
        ∀ n, n = .nan_values ∨ n = .number_base → optionOf (pyRun h' ops) h.length n = optionOf (pyRun h' ops) i n := by
  obtain ⟨p, hp⟩ := hc
  have hi := lt_of_get hp
  refine ⟨h ++ [.parserIn i], by simp [pyStep, PyHeap.read, hp, PyHeap.push], fun ops => ?_⟩
  have key : ∀ (ops : List PyOp) (h' : PyHeap), h'[h.length]? = some (.parserIn i) → (∃ p, h'[i]? = some (.csv p)) →
      (pyRun h' ops)[h.length]? = some (.parserIn i) ∧ ∃ p, (pyRun h' ops)[i]? = some (.csv p) := by
    intro ops
    induction ops with
    | nil => intro h' h1 h2; exact ⟨h1, h2⟩
    | cons op ops ih =>
      intro h' h1 h2
      refine ih _ (at_parserIn ?_) ?_
      · rw [moves_cls (step_moves op) _ (lt_of_get h1), h1]
        rfl
      · obtain ⟨p, hp⟩ := h2
        exact moves_csv (step_moves op) hp
  obtain ⟨h1, q, h2⟩ := key ops (h ++ [.parserIn i]) (by simp) ⟨p, by rw [List.getElem?_append_left hi]; exact hp⟩
  refine ⟨.inr ⟨i, h1⟩, fun n hn => ?_⟩
  simp only [optionOf, h1, h2]
  exact (csvOption_parser q n hn).symm

/-! ## Readers -/

/-- **C87.** A CSV reader has the options that the two objects have when it is constructed, and keeps them whatever is done with the
objects later. -/
theorem C87_csv_reader (h : PyHeap) (d p : Nat) (hd : ClassIs h d .data) (hp : ClassIs h p .csv) :
    ∃ h', pyStep h (.csvReader (.obj d) (.obj p)) = (h', some (.obj h.length)) ∧
      ∀ ops n v, optionOf h d n = some v ∨ optionOf h p n = some v → optionOf (pyRun h' ops) h.length n = some v := by
  obtain ⟨x, hx⟩ := hd
  obtain ⟨y, hy⟩ := hp
  refine ⟨h ++ [.reader (.csv x y)], by simp [pyStep, PyHeap.asData, PyHeap.asCsv, asOpt, hx, hy, PyHeap.push], ?_⟩
  intro ops n v hv
  simp only [optionOf, hx, hy] at hv
  have hg := reader_run (i := h.length) (g := .csv x y) ops (h ++ [.reader (.csv x y)]) (by simp)
  simp only [optionOf, hg]
  rcases hv with hv | hv
  · rw [hv]
    rfl
  · rcases data_csv x y n with e | e
    · rw [e, hv]
      rfl
    · rw [e] at hv
      cases hv

/-- **C87.** The same for a reader of images. -/
theorem C87_image_reader (h : PyHeap) (d p : Nat) (hd : ClassIs h d .data) (hp : ClassIs h p .image) :
    ∃ h', pyStep h (.imageReader (.obj d) (.obj p)) = (h', some (.obj h.length)) ∧
      ∀ ops n v, optionOf h d n = some v ∨ optionOf h p n = some v → optionOf (pyRun h' ops) h.length n = some v := by
  obtain ⟨x, hx⟩ := hd
  obtain ⟨y, hy⟩ := hp
  refine ⟨h ++ [.reader (.image x y)], by simp [pyStep, PyHeap.asData, PyHeap.asImage, hx, hy, PyHeap.push], ?_⟩
  intro ops n v hv
  simp only [optionOf, hx, hy] at hv
  have hg := reader_run (i := h.length) (g := .image x y) ops (h ++ [.reader (.image x y)]) (by simp)
  simp only [optionOf, hg]
  rcases hv with hv | hv
  · rw [hv]
    rfl
  · rcases data_image x y n with e | e
    · rw [e, hv]
      rfl
    · rw [e] at hv
      cases hv

/-- **C87.** A CSV reader without `CsvParams` has their defaults. -/
theorem C87_csv_reader_default (h : PyHeap) (d : Nat) (hd : ClassIs h d .data) :
    ∃ h', pyStep h (.csvReader (.obj d) .none) = (h', some (.obj h.length)) ∧
      ∀ ops, (∀ n v, optionOf h d n = some v → optionOf (pyRun h' ops) h.length n = some v) ∧
        ∀ n v, n ≠ .parser_options → (n, some v) ∈ signature .csv ++ signature .parser → optionOf (pyRun h' ops) h.length n = some v := by
  obtain ⟨x, hx⟩ := hd
  refine ⟨h ++ [.reader (.csv x {})], by simp [pyStep, PyHeap.asData, asOpt, hx, PyHeap.push], ?_⟩
  intro ops
  have hg := reader_run (i := h.length) (g := .csv x {}) ops (h ++ [.reader (.csv x {})]) (by simp)
  refine ⟨fun n v hv => ?_, fun n v hn hv => ?_⟩
  · simp only [optionOf, hx] at hv
    simp only [optionOf, hg, hv]
    rfl
  · simp only [optionOf, hg]
    simp only [signature, List.cons_append, List.nil_append, List.mem_cons, Prod.mk.injEq, Option.some.injEq, List.not_mem_nil, or_false] at hv
    rcases hv with h | h | h | h | h | h | h | h | h | h | h | h | h | h | h | h | h | h | h | h | h | h <;> obtain ⟨rfl, rfl⟩ := h <;>
      first | rfl | contradiction

/-- **C87.** The readers of RecordIO and of lines. -/
theorem C87_other_readers (h : PyHeap) (d : Nat) (hd : ClassIs h d .data) :
    (∃ h', pyStep h (.protoReader (.obj d)) = (h', some (.obj h.length)) ∧
      ∀ ops n v, optionOf h d n = some v → optionOf (pyRun h' ops) h.length n = some v) ∧
    ∃ h', pyStep h (.textReader (.obj d)) = (h', some (.obj h.length)) ∧
      ∀ ops n v, optionOf h d n = some v → optionOf (pyRun h' ops) h.length n = some v := by
  obtain ⟨x, hx⟩ := hd
  refine ⟨⟨h ++ [.reader (.proto x)], by simp [pyStep, PyHeap.asData, hx, PyHeap.push], ?_⟩,
    ⟨h ++ [.reader (.text x)], by simp [pyStep, PyHeap.asData, hx, PyHeap.push], ?_⟩⟩ <;> intro ops n v hv <;>
    simp only [optionOf, hx] at hv
  · simp only [optionOf, reader_run (i := h.length) (g := .proto x) ops (h ++ [.reader (.proto x)]) (by simp), hv]
  · simp only [optionOf, reader_run (i := h.length) (g := .text x) ops (h ++ [.reader (.text x)]) (by simp), hv]

/-- **C87.** The last value counts: an option is assigned, then anything happens that does not assign it again, then a reader is
constructed from the object.  The reader has the value. -/
theorem C87_last_value_partial (h : PyHeap) (hr : PyReachable h) (i : Nat) (c : OptClass) (hc : ClassIs h i c) (n : OptName) (k : OptKind)
    (v : PyVal) (hk : optKindOf c n = some k) (hv : HasKind h k v) (h1 : n ≠ .warn_bad_instances) (h2 : n ≠ .encoding)
    (h3 : n ≠ .parser_options) (ops : List PyOp) (hn : NeverAssigns (pyStep h (.assign i n v)).1 ops i n) :
    let h' := pyRun h (.assign i n v :: ops)
    optionOf h' i n = some v ∧
      (c = .data → ∀ p, ClassIs h' p .csv → ∀ later, optionOf (pyRun h' (.csvReader (.obj i) (.obj p) :: later)) h'.length n = some v) ∧
      (c = .csv → ∀ d, ClassIs h' d .data → ∀ later, optionOf (pyRun h' (.csvReader (.obj d) (.obj i) :: later)) h'.length n = some v) ∧
      (c = .image → ∀ d, ClassIs h' d .data → ∀ later, optionOf (pyRun h' (.imageReader (.obj d) (.obj i) :: later)) h'.length n = some v) := by
  intro h'
  obtain ⟨h1', e, ho⟩ := C87_assign_partial h hr i c hc n k v hk hv h1 h2 h3
  have hlt : i < (pyStep h (.assign i n v)).1.length :=
    Nat.lt_of_lt_of_le (class_lt hc) (moves_length (step_moves _))
  have hv' : optionOf h' i n = some v := by
    change optionOf (pyRun (pyStep h (.assign i n v)).1 ops) i n = some v
    rw [frame_run ops _ (owned_reachable (reachable_step hr _)) i n hlt hn, e]
    exact ho
  have hc' : ClassIs h' i c := class_run _ h hc
  refine ⟨hv', ?_, ?_, ?_⟩
  · rintro rfl p hp later
    obtain ⟨h2', e', hx⟩ := C87_csv_reader h' i p hc' hp
    rw [pyRun, e']
    exact hx later n v (.inl hv')
  · rintro rfl d hd later
    obtain ⟨h2', e', hx⟩ := C87_csv_reader h' d i hd hc'
    rw [pyRun, e']
    exact hx later n v (.inr hv')
  · rintro rfl d hd later
    obtain ⟨h2', e', hx⟩ := C87_image_reader h' d i hd hc'
    rw [pyRun, e']
    exact hx later n v (.inr hv')

/-! ## Where the documentation does not hold -/

/-- **C87 is violated**: `warn_bad_instances` is no attribute; it can be neither assigned nor read. -/
theorem C87_warn_violated (h : PyHeap) (i : Nat) (hc : ClassIs h i .data) (v : PyVal) :
    pyStep h (.assign i .warn_bad_instances v) = (h, none) ∧ pyStep h (.get i .warn_bad_instances) = (h, none) := by
  obtain ⟨p, hp⟩ := hc
  simp [pyStep, PyHeap.assign, PyHeap.read, hp, setData, getData, PyHeap.update]

/-- **C87 is violated**: the attribute `encoding` takes no name of an encoding, and cannot be read once the constructor was
given one. -/
theorem C87_encoding_violated (h : PyHeap) (i : Nat) (hc : ClassIs h i .csv) (s : Bytes) :
    pyStep h (.assign i .encoding (.str s)) = (h, none) ∧
      ∀ w, optionOf h i .encoding = some (.str w) → pyStep h (.get i .encoding) = (h, none) := by
  obtain ⟨p, hp⟩ := hc
  refine ⟨by simp [pyStep, PyHeap.assign, hp, setCsv, asEncoding, PyHeap.update], fun w hw => ?_⟩
  simp only [optionOf, hp, csvOption, Option.some.injEq] at hw
  cases he : p.encoding with
  | none => simp [he] at hw
  | some x => simp [pyStep, PyHeap.read, hp, getCsv, he]

/-- **C87 is violated**: the documented defaults `None` of the containers are refused, by the constructor and by the attribute. -/
theorem C87_none_violated (h : PyHeap) :
    (∀ n, n = .column_names ∨ n = .use_columns ∨ n = .use_columns_by_index ∨ n = .column_types ∨ n = .column_types_by_index →
      pyStep h (.construct .csv [] [(n, .none)]) = (h, none) ∧
        ∀ i, ClassIs h i .csv → pyStep h (.assign i n .none) = (h, none)) ∧
    pyStep h (.construct .parser [] [(.nan_values, .none)]) = (h, none) ∧
    ∀ i p, h[i]? = some (.parser p) → pyStep h (.assign i .nan_values .none) = (h, none) := by
  refine ⟨?_, rfl, ?_⟩
  · rintro n (rfl | rfl | rfl | rfl | rfl) <;>
      exact ⟨rfl, fun i ⟨p, hp⟩ => by simp [pyStep, PyHeap.assign, hp, setCsv, asVec, asSet, asMap, PyHeap.update]⟩
  · intro i p hp
    simp [pyStep, PyHeap.assign, hp, setParser, asSet, PyHeap.update]

/-- **C87 is violated**: `None` among the data stores is accepted, although a sequence of data stores is documented, by the constructor and by the
attribute, and a reader is made with a data store that does not exist. -/
theorem C87_missing_store_violated (h : PyHeap) (before after : List Nat) :
    let l : PyVal := .list (before.map .store ++ .none :: after.map .store)
    ¬ HasKind h (.sequence .store) l ∧
      (∃ h', pyStep h (.construct .data [l, .int 1] []) = (h', some (.obj h.length)) ∧
        ∀ ops, optionOf (pyRun h' (.textReader (.obj h.length) :: ops)) (h.length + 1) .dataset = some l) ∧
      ∀ i, ClassIs h i .data → ∃ h', pyStep h (.assign i .dataset l) = (h', some .none) ∧ optionOf h' i .dataset = some l := by
  intro l
  have hmap : ∀ s : List Nat, (s.map PyVal.store).mapM asStore = some (s.map some) := by
    intro s
    induction s with
    | nil => rfl
    | cons x s ih => simp [asStore, ih]
  have hl : asVec asStore l = some (before.map some ++ none :: after.map some) := by
    simp only [l, asVec, List.mapM_append, List.mapM_cons, hmap]
    rfl
  have hb : PyVal.list ((before.map some ++ none :: after.map some).map fun s => s.elim .none .store) = l := by
    simp [l, Function.comp_def]
  refine ⟨?_, ?_, ?_⟩
  · rintro ⟨m, hm, hk⟩
    injection hm with hm
    subst hm
    obtain ⟨n, hn⟩ := hk .none (by simp)
    cases hn
  · refine ⟨h ++ [.data { dataset := before.map some ++ none :: after.map some, batchSize := 1 }], ?_, fun ops => ?_⟩
    · have hc : (bindCall dataArgs [l, .int 1] []).bind makeData =
          some { dataset := before.map some ++ none :: after.map some, batchSize := 1 } := by
        simp [bindCall, bindArgs, dataArgs, makeData, hl, asPySize, asEnum, asBool, asOpt]
      simp [pyStep, PyHeap.construct, hc, PyHeap.push]
    · obtain ⟨h', e, hr⟩ := (C87_other_readers (h ++ [.data { dataset := before.map some ++ none :: after.map some, batchSize := 1 }]) h.length
        ⟨{ dataset := before.map some ++ none :: after.map some, batchSize := 1 }, by simp⟩).2
      have := hr ops .dataset l (by simp only [optionOf]; simp [dataOption, ← hb])
      simpa [pyRun, e] using this
  · rintro i ⟨p, hp⟩
    have hi := lt_of_get hp
    exact ⟨h.set i (.data { p with dataset := before.map some ++ none :: after.map some }),
      by simp [pyStep, PyHeap.assign, hp, setData, hl, PyHeap.update], by simp only [optionOf]; simp [hi, dataOption, ← hb]⟩

/-- **C87 is violated**: `ImageReaderParams` cannot be constructed without `image_dimensions`, although they have a default. -/
theorem C87_image_violated (h : PyHeap) : pyStep h (.construct .image [] []) = (h, none) := rfl

/-- **C87 is violated**: the documented name `parser_params` does not exist. -/
theorem C87_parser_params_violated (h : PyHeap) (i : Nat) (hc : ClassIs h i .csv) (v : PyVal) :
    pyStep h (.construct .csv [] [(.parser_params, v)]) = (h, none) ∧ pyStep h (.assign i .parser_params v) = (h, none) := by
  obtain ⟨p, hp⟩ := hc
  refine ⟨?_, by simp [pyStep, PyHeap.assign, hp, setCsv, PyHeap.update]⟩
  have : bindCall csvArgs [] [(.parser_params, v)] = none := by
    simp [bindCall, csvArgs]
  simp [pyStep, PyHeap.construct, this, PyHeap.push]

/-- **C87 is violated** for characters that are not ASCII, which are accepted.  A delimiter from U+0080 to U+00BF leaves half of
itself in the field before it. -/
theorem C87_delimiter_violated (c : UInt8) (hc : 128 ≤ c.toNat ∧ c.toNat < 192) (x y : Bytes) (hx : c ∉ x ∧ x.head? ≠ some 34)
    (hx' : x ≠ []) (hy : c ∉ y ∧ y.head? ≠ some 34) :
    asChar (.str (charText c)) = some c ∧
      tokenize { delimiter := c } (x ++ charText c ++ y) = ([(x ++ [0xC2], false), (y, false)], .ok ()) := by
  have hq : charText c = [0xC2, c] := by
    unfold charText
    rw [if_neg (by omega)]
    have h1 : c.toNat / 64 = 2 := by omega
    rw [h1]
    congr 2
    apply UInt8.toNat_inj.1
    simp
    omega
  refine ⟨asChar_text c, ?_⟩
  have hd : c ≠ 34 := by
    rintro rfl
    exact absurd hc.1 (by decide)
  have hd' : c ≠ 0xC2 := by
    rintro rfl
    exact absurd hc.2 (by decide)
  have := C08_tokenize_inverts_quoting { delimiter := c } rfl hd [⟨x ++ [0xC2], false⟩, ⟨y, false⟩] (by simp) (by
    intro f hf
    simp only [List.mem_cons, List.not_mem_nil, or_false] at hf
    rcases hf with rfl | rfl
    · refine .inr ⟨?_, ?_⟩
      · simp [hx.1, hd']
      · cases x with
        | nil => exact absurd rfl hx'
        | cons a x => simpa using hx.2
    · exact .inr ⟨hy.1, hy.2⟩)
  rw [hq]
  simpa [rowBytes, Field.bytes] using this

end Mlio
