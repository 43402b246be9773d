import Verif.Spec.Pandas
import Verif.Props.Exchange
import Verif.Props.PyError
import Verif.Model.CsvDecode

/-!
# C79: strings and whole examples in Python
-/

namespace Mlio

open Spec

/-! ## Strings -/

theorem fillStrings_ok (bs : List Bytes) (ss : List String) (buf : List String) (hl : ss.length = bs.length)
    (h : ∀ (i : Nat) (b : Bytes) (s : String), bs[i]? = some b → ss[i]? = some s → IsText b s) :
    fillStrings bs buf = (buf ++ ss, true) := by
  induction bs generalizing ss buf with
  | nil =>
    have : ss = [] := List.eq_nil_of_length_eq_zero hl
    simp [fillStrings, this]
  | cons b bs ih =>
    cases ss with
    | nil => simp at hl
    | cons s ss =>
      rw [fillStrings, pyStr_of_isText (h 0 b s rfl rfl)]
      simp only
      rw [ih ss (buf ++ [s]) (by simpa using hl) (fun i b' s' h1 h2 => h (i + 1) b' s' (by simpa using h1) (by simpa using h2))]
      simp

theorem fillStrings_bad (bs : List Bytes) (buf : List String) (h : ∃ b ∈ bs, ¬ ∃ s, IsText b s) :
    ∃ ss, fillStrings bs buf = (buf ++ ss, false) ∧ ss.length < bs.length ∧
      ((∃ b s, bs[0]? = some b ∧ IsText b s) → ss ≠ []) := by
  induction bs generalizing buf with
  | nil => obtain ⟨b, hb, _⟩ := h; cases hb
  | cons b bs ih =>
    rw [fillStrings]
    by_cases hb : ∃ s, IsText b s
    · obtain ⟨s, hs⟩ := hb
      obtain ⟨b', hb', hn⟩ := h
      have hmem : b' ∈ bs := by
        rcases List.mem_cons.mp hb' with rfl | h
        · exact absurd ⟨s, hs⟩ hn
        · exact h
      obtain ⟨ss, h1, h2, _⟩ := ih (buf ++ [s]) ⟨b', hmem, hn⟩
      rw [pyStr_of_isText hs]
      simp only [h1]
      exact ⟨s :: ss, by simp, by simpa using h2, fun _ => by simp⟩
    · have hp : pyStr b = none := by
        cases hp : pyStr b with
        | none => rfl
        | some s => exact absurd ⟨s, pyStr_some hp⟩ hb
      rw [hp]
      simp only
      refine ⟨[], by simp, by simp, ?_⟩
      rintro ⟨b', s, h1, h2⟩
      simp only [List.getElem?_cons_zero, Option.some.injEq] at h1
      subst h1
      exact absurd ⟨s, h2⟩ hb

theorem texts (bs : List Bytes) (h : ∀ b ∈ bs, ∃ s, IsText b s) : ∃ ss : List String, ss.length = bs.length ∧
    ∀ (i : Nat) (b : Bytes) (s : String), bs[i]? = some b → ss[i]? = some s → IsText b s := by
  induction bs with
  | nil => exact ⟨[], rfl, by simp⟩
  | cons b bs ih =>
    obtain ⟨s, hs⟩ := h b (by simp)
    obtain ⟨ss, h1, h2⟩ := ih (fun b' hb' => h b' (by simp [hb']))
    refine ⟨s :: ss, by simp [h1], ?_⟩
    intro i b' s' hb' hs'
    cases i with
    | zero =>
      simp only [List.getElem?_cons_zero, Option.some.injEq] at hb' hs'
      subst hb' hs'
      exact hs
    | succ i => exact h2 i b' s' (by simpa using hb') (by simpa using hs')

/-- C79: an array of strings that are text is the same array of texts in Python, however often it is read. -/
theorem C79_strings (bs : List Bytes) (h : ∀ b ∈ bs, ∃ s, IsText b s) :
    ∃ (ss : List String) (a : PyStrings), ss.length = bs.length ∧
      (∀ (i : Nat) (b : Bytes) (s : String), bs[i]? = some b → ss[i]? = some s → IsText b s) ∧
      PyStrings.read { strings := bs } = (.ok ss, a) ∧ a.read = (.ok ss, a) := by
  obtain ⟨ss, h1, h2⟩ := texts bs h
  have hf := fillStrings_ok bs ss [] h1 h2
  refine ⟨ss, ⟨bs, ss⟩, h1, h2, ?_, ?_⟩
  · unfold PyStrings.read
    simp only [if_true, hf, List.nil_append]
  · unfold PyStrings.read
    simp only
    split
    · next hn => rw [hf]; simp
    · rw [if_neg (by omega)]

example : PyStrings.read { strings := [txt "a", txt "é"] } = (.ok ["a", "é"], ⟨[txt "a", txt "é"], ["a", "é"]⟩) := by decide +kernel

/-- C79: an array with a string that is not text is refused. -/
theorem C79_strings_refused (bs : List Bytes) (h : ∃ b ∈ bs, ¬ ∃ s, IsText b s) :
    (PyStrings.read { strings := bs }).1 = .err .invalidArgument := by
  obtain ⟨ss, h1, _⟩ := fillStrings_bad bs [] h
  unfold PyStrings.read
  simp only [if_true, h1]

/-- The byte `C3` alone is not text. -/
theorem lone_byte : ¬ ∃ s, IsText [0xC3] s := by
  rintro ⟨s, hs⟩
  have h1 := pyStr_of_isText hs
  have h2 : pyStr [0xC3] = none := by decide +kernel
  rw [h2] at h1
  cases h1

example : ∃ b ∈ [txt "a", [0xC3]], ¬ ∃ s, IsText b s := ⟨[0xC3], by simp, lone_byte⟩

/-- C79 is violated by reading such an array a second time, if its first string is text: beyond the strings before the
bad one, memory that was never written is taken for pointers to objects. -/
theorem C79_second_read_violated (bs : List Bytes) (h : ∃ b ∈ bs, ¬ ∃ s, IsText b s) (h0 : ∃ b s, bs[0]? = some b ∧ IsText b s) :
    ((PyStrings.read { strings := bs }).2.read).1 = .ub "read beyond the buffer" := by
  obtain ⟨ss, h1, h2, h3⟩ := fillStrings_bad bs [] h
  have hne := h3 h0
  have hr : (PyStrings.read { strings := bs }).2 = ⟨bs, ss⟩ := by
    unfold PyStrings.read
    simp only [if_true, h1, List.nil_append]
  rw [hr]
  unfold PyStrings.read
  simp only [hne, if_false, h2, if_true]

/-- C79 is violated by the cells of CSV files that are cut at the maximum length in the middle of a character: the row
`é,1` is text and is accepted, but the column cannot be read in Python. -/
theorem C79_cut_cell_violated : (∃ s, IsText (txt "é,1") s) ∧
    ∃ w, (decodeRow { tok := { maxField := some 1 }, limit := .truncate } [⟨false, some, []⟩, ⟨false, some, []⟩] (Tok.init []) (txt "é,1")).writes =
        [(0, w), (1, txt "1")] ∧
      (decodeRow { tok := { maxField := some 1 }, limit := .truncate } [⟨false, some, []⟩, ⟨false, some, []⟩] (Tok.init []) (txt "é,1")).out = .ok true ∧
      (PyStrings.read { strings := [w] }).1 = .err .invalidArgument :=
  ⟨⟨_, isText_txt _⟩, [0xC3], by decide +kernel, by decide +kernel, by decide +kernel⟩

/-! ## pandas -/

theorem npOffsets_rowMajor (shape : List Nat) :
    npOffsets shape (rowMajor shape) = (List.range (numElements shape)).map fun (n : Nat) => (n : Int) := by
  induction shape with
  | nil => rfl
  | cons d ds ih =>
    rw [rowMajor, npOffsets, ih, numElements]
    induction d with
    | zero => simp
    | succ d ihd =>
      rw [List.range_succ, List.flatMap_append, ihd, Nat.succ_mul, List.range_add, List.map_append]
      congr 1
      simp only [List.flatMap_singleton, List.map_map]
      apply List.map_congr_left
      intro x _
      simp

theorem npGather_ok (elems : List PyCell) (n : Nat) (os : List Nat) (ho : ∀ o ∈ os, o < n) (hn : n ≤ elems.length) :
    ∃ cs, npGather elems (os.map fun (x : Nat) => (x : Int)) = .ok cs ∧ cs.length = os.length ∧
      ∀ (k o : Nat), os[k]? = some o → cs[k]? = elems[o]? := by
  induction os with
  | nil => exact ⟨[], rfl, rfl, by simp⟩
  | cons o os ih =>
    obtain ⟨cs, h1, h2, h3⟩ := ih (fun x hx => ho x (by simp [hx]))
    have hlt : o < elems.length := by have := ho o (by simp); omega
    refine ⟨elems[o] :: cs, ?_, by simp [h2], ?_⟩
    · simp only [List.map_cons, npGather, Int.natCast_nonneg, if_true, Int.toNat_natCast, List.getElem?_eq_getElem hlt, h1]
    · intro k x hk
      cases k with
      | zero =>
        simp only [List.getElem?_cons_zero, Option.some.injEq] at hk
        subst hk
        simp [List.getElem?_eq_getElem hlt]
      | succ k => exact h3 k x (by simpa using hk)

theorem flatten_column (f : PyFeature) (shape : List Nat) (h : FeatureOk shape f) :
    ∃ a c, asNumpy f = .ok a ∧ a.flatten = .ok c ∧ IsFrameColumn f shape c := by
  cases f with
  | sparse => exact h.elim
  | dense t =>
    obtain ⟨h1, h2, h3⟩ := h
    obtain ⟨c, c1, c2, c3⟩ := npGather_ok (t.arr.elems.map .raw) _ (List.range (numElements shape))
      (fun o ho => List.mem_range.mp ho) (by simpa using h3)
    refine ⟨_, c, rfl, ?_, by simpa using c2, ?_⟩
    · simp only [NpArray.flatten, h1, h2, npOffsets_rowMajor, c1]
    · intro idx hi
      obtain ⟨p, hp, hlt⟩ := offset_rowMajor idx shape hi
      have hpl : p < t.arr.elems.length := by omega
      refine ⟨p, .raw t.arr.elems[p], hp, ?_, ?_⟩
      · rw [c3 p p (List.getElem?_range hlt), List.getElem?_map, List.getElem?_eq_getElem hpl]
        rfl
      · apply CellOf.number
        unfold tensorElement
        rw [h2, hp, if_pos (by omega), Int.toNat_natCast, List.getElem?_eq_getElem hpl]
  | text info bs =>
    obtain ⟨h1, h2, h3, h4⟩ := h
    obtain ⟨ss, a, s1, s2, s3, _⟩ := C79_strings bs h4
    obtain ⟨c, c1, c2, c3⟩ := npGather_ok (ss.map .str) _ (List.range (numElements shape))
      (fun o ho => List.mem_range.mp ho) (by simpa [s1] using h3)
    refine ⟨⟨info.shape, info.strides, ss.map .str⟩, c, ?_, ?_, by simpa using c2, ?_⟩
    · simp only [asNumpy, s3]
    · simp only [NpArray.flatten, h1, h2, npOffsets_rowMajor, c1]
    · intro idx hi
      obtain ⟨p, hp, hlt⟩ := offset_rowMajor idx shape hi
      have hpl : p < bs.length := by omega
      refine ⟨p, .str (ss[p]'(by omega)), hp, ?_, ?_⟩
      · rw [c3 p p (List.getElem?_range hlt), List.getElem?_map, List.getElem?_eq_getElem (show p < ss.length by omega)]
        rfl
      · refine .text info bs idx p bs[p] _ (by rw [h2, hp]) (List.getElem?_eq_getElem hpl) ?_
        exact s2 p _ _ (List.getElem?_eq_getElem hpl) (List.getElem?_eq_getElem (by omega))

theorem pandasData_ok (fs : List (Bytes × PyFeature)) (shapes : List (List Nat)) (hl : shapes.length = fs.length)
    (h : ∀ (k : Nat) f s, fs[k]? = some f → shapes[k]? = some s → FeatureOk s f.2) :
    ∃ cs, pandasData fs = .ok cs ∧ cs.length = fs.length ∧
      ∀ (k : Nat) f s, fs[k]? = some f → shapes[k]? = some s → ∃ c, cs[k]? = some (f.1, c) ∧ IsFrameColumn f.2 s c := by
  induction fs generalizing shapes with
  | nil => exact ⟨[], rfl, rfl, by simp⟩
  | cons f fs ih =>
    obtain ⟨n, f⟩ := f
    cases shapes with
    | nil => simp at hl
    | cons s shapes =>
      obtain ⟨cs, h1, h2, h3⟩ := ih shapes (by simpa using hl) (fun k f' s' a b => h (k + 1) f' s' (by simpa using a) (by simpa using b))
      obtain ⟨a, c, e1, e2, e3⟩ := flatten_column f s (h 0 (n, f) s rfl rfl)
      refine ⟨(n, c) :: cs, ?_, by simp [h2], ?_⟩
      · simp only [pandasData, e1, e2, h1]
      · intro k f' s' hf hs
        cases k with
        | zero =>
          simp only [List.getElem?_cons_zero, Option.some.injEq] at hf hs
          subst hf hs
          exact ⟨c, rfl, e3⟩
        | succ k => exact h3 k f' s' (by simpa using hf) (by simpa using hs)

/-- C79: an example whose features are dense becomes a data frame with a column for each feature, in order, that has all
its elements in row-major order – if all features have the same number of elements.  If they do not, the example is
refused. -/
theorem C79_columns (fs : List (Bytes × PyFeature)) (shapes : List (List Nat)) (hl : shapes.length = fs.length)
    (h : ∀ (k : Nat) f s, fs[k]? = some f → shapes[k]? = some s → FeatureOk s f.2) :
    ((∀ s ∈ shapes, ∀ s' ∈ shapes, numElements s = numElements s') →
      ∃ cs, toPandas fs = .ok cs ∧ cs.length = fs.length ∧
        ∀ (k : Nat) f s, fs[k]? = some f → shapes[k]? = some s → ∃ c, cs[k]? = some (f.1, c) ∧ IsFrameColumn f.2 s c) ∧
    ((∃ s ∈ shapes, ∃ s' ∈ shapes, numElements s ≠ numElements s') → toPandas fs = .err .invalidArgument) := by
  obtain ⟨cs, h1, h2, h3⟩ := pandasData_ok fs shapes hl h
  have hcol : ∀ (k : Nat) (c : Bytes × List PyCell), cs[k]? = some c → ∃ s, shapes[k]? = some s ∧ c.2.length = numElements s := by
    intro k c hc
    have hk : k < cs.length := (List.getElem?_eq_some_iff.mp hc).1
    obtain ⟨c', hc', hcol⟩ := h3 k fs[k] shapes[k] (List.getElem?_eq_getElem _) (List.getElem?_eq_getElem _)
    rw [hc] at hc'
    cases hc'
    exact ⟨_, List.getElem?_eq_getElem _, hcol.1⟩
  constructor
  · intro heq
    refine ⟨cs, ?_, h2, h3⟩
    unfold toPandas
    rw [h1]
    simp only
    rw [if_pos]
    intro c hc d hd
    obtain ⟨k, hk⟩ := List.mem_iff_getElem?.mp hc
    obtain ⟨k', hk'⟩ := List.mem_iff_getElem?.mp hd
    obtain ⟨s, hs, e1⟩ := hcol k c hk
    obtain ⟨s', hs', e2⟩ := hcol k' d hk'
    rw [e1, e2]
    exact heq s (List.mem_of_getElem? hs) s' (List.mem_of_getElem? hs')
  · rintro ⟨s, hs, s', hs', hne⟩
    unfold toPandas
    rw [h1]
    simp only
    rw [if_neg]
    intro hall
    obtain ⟨k, hk⟩ := List.mem_iff_getElem?.mp hs
    obtain ⟨k', hk'⟩ := List.mem_iff_getElem?.mp hs'
    have hkl : k < shapes.length := (List.getElem?_eq_some_iff.mp hk).1
    have hkl' : k' < shapes.length := (List.getElem?_eq_some_iff.mp hk').1
    obtain ⟨c, hc, e1⟩ := h3 k fs[k] s (List.getElem?_eq_getElem _) hk
    obtain ⟨c', hc', e2⟩ := h3 k' fs[k'] s' (List.getElem?_eq_getElem _) hk'
    have := hall _ (List.mem_of_getElem? hc) _ (List.mem_of_getElem? hc')
    simp only [e1.1, e2.1] at this
    exact hne this

/-- C79: an example that has one value per instance for each feature, as those of CSV files, becomes a data frame with a
row for each instance. -/
theorem C79_frame_partial (fs : List (Bytes × PyFeature)) (n : Nat)
    (h : ∀ f ∈ fs, ∃ shape, OnePerRow n shape ∧ FeatureOk shape f.2) :
    ∃ cs, toPandas fs = .ok cs ∧ cs.map Prod.fst = fs.map Prod.fst ∧
      ∀ (k : Nat) f, fs[k]? = some f → ∃ c shape, cs[k]? = some (f.1, c) ∧ c.length = n ∧ featureShape f.2 = some shape ∧
        ∀ i, i < n → ∃ x, c[i]? = some x ∧ CellOf f.2 (rowIndex shape i) x := by
  have hsh : ∃ shapes : List (List Nat), shapes.length = fs.length ∧
      (∀ (k : Nat) f s, fs[k]? = some f → shapes[k]? = some s → FeatureOk s f.2) ∧ ∀ s ∈ shapes, OnePerRow n s := by
    induction fs with
    | nil => exact ⟨[], rfl, by simp, by simp⟩
    | cons f fs ih =>
      obtain ⟨ss, h1, h2, h3⟩ := ih (fun g hg => h g (by simp [hg]))
      obtain ⟨s, hs, hf⟩ := h f (by simp)
      refine ⟨s :: ss, by simp [h1], ?_, ?_⟩
      · intro k g t hg ht
        cases k with
        | zero =>
          simp only [List.getElem?_cons_zero, Option.some.injEq] at hg ht
          subst hg ht
          exact hf
        | succ k => exact h2 k g t (by simpa using hg) (by simpa using ht)
      · intro t ht
        rcases List.mem_cons.mp ht with rfl | ht
        · exact hs
        · exact h3 t ht
  obtain ⟨shapes, hl, hok, hone⟩ := hsh
  have hnum : ∀ s ∈ shapes, numElements s = n := by
    intro s hs
    rcases hone s hs with rfl | rfl <;> simp [numElements]
  obtain ⟨cs, h1, h2, h3⟩ := (C79_columns fs shapes hl hok).1 (fun s hs s' hs' => by rw [hnum s hs, hnum s' hs'])
  refine ⟨cs, h1, ?_, ?_⟩
  · apply List.ext_getElem?
    intro k
    rw [List.getElem?_map, List.getElem?_map]
    by_cases hk : k < fs.length
    · obtain ⟨c, hc, _⟩ := h3 k fs[k] shapes[k] (List.getElem?_eq_getElem _) (List.getElem?_eq_getElem _)
      rw [hc, List.getElem?_eq_getElem hk]
      rfl
    · rw [List.getElem?_eq_none (by omega), List.getElem?_eq_none (by omega)]
      rfl
  · intro k f hf
    have hk : k < fs.length := (List.getElem?_eq_some_iff.mp hf).1
    have hks : k < shapes.length := by omega
    obtain ⟨c, hc, hcol⟩ := h3 k f shapes[k] hf (List.getElem?_eq_getElem hks)
    have hmem : shapes[k] ∈ shapes := List.getElem_mem hks
    have hfo := hok k f shapes[k] hf (List.getElem?_eq_getElem hks)
    have hfs : featureShape f.2 = some shapes[k] := by
      generalize shapes[k] = s at hfo
      generalize f.2 = g at hfo
      cases g with
      | sparse => exact hfo.elim
      | dense t => exact congrArg some hfo.1
      | text i b => exact congrArg some hfo.1
    refine ⟨c, shapes[k], hc, by rw [hcol.1, hnum _ hmem], hfs, ?_⟩
    intro i hi
    have hone' := hone _ hmem
    have hin : InShape (rowIndex shapes[k] i) shapes[k] := by
      rcases hone' with e | e <;> rw [e] <;> simp [rowIndex, InShape, hi]
    obtain ⟨p, x, hp, hx, hcell⟩ := hcol.2 _ hin
    refine ⟨x, ?_, hcell⟩
    have : p = i := by
      rcases hone' with e | e <;> rw [e] at hp <;> simp [rowIndex, rowMajor, numElements, offset] at hp <;> omega
    rw [← this]; exact hx

/-- The features of two rows of a CSV file: a string and a byte. -/
def exFeatures : List (Bytes × PyFeature) :=
  [(txt "a", .text ⟨[2, 1], [1, 1], 2⟩ [txt "x", txt "é"]), (txt "b", .dense ⟨⟨[2, 1], [1, 1], 2⟩, ⟨.uint8, [[7], [8]]⟩⟩)]

example : ∀ f ∈ exFeatures, ∃ shape, OnePerRow 2 shape ∧ FeatureOk shape f.2 := by
  intro f hf
  refine ⟨[2, 1], .inr rfl, ?_⟩
  simp only [exFeatures, List.mem_cons, List.not_mem_nil, or_false] at hf
  rcases hf with rfl | rfl
  · refine ⟨rfl, rfl, by decide, ?_⟩
    intro b hb
    simp only [List.mem_cons, List.not_mem_nil, or_false] at hb
    rcases hb with rfl | rfl <;> exact ⟨_, isText_txt _⟩
  · exact ⟨rfl, rfl, by decide⟩

example : toPandas exFeatures = .ok [(txt "a", [.str "x", .str "é"]), (txt "b", [.raw [7], .raw [8]])] := by decide +kernel

/-- C79: an example with a sparse feature is refused. -/
theorem C79_sparse (fs : List (Bytes × PyFeature)) (n : Bytes) (hn : (n, .sparse) ∈ fs) (shapes : List (List Nat))
    (hl : shapes.length = fs.length)
    (h : ∀ (k : Nat) f s, fs[k]? = some f → shapes[k]? = some s → f.2 = .sparse ∨ FeatureOk s f.2) :
    toPandas fs = .err .invalidArgument := by
  have hd : pandasData fs = .err .invalidArgument := by
    induction fs generalizing shapes with
    | nil => cases hn
    | cons f fs ih =>
      obtain ⟨m, f⟩ := f
      cases shapes with
      | nil => simp at hl
      | cons s shapes =>
        rcases h 0 (m, f) s rfl rfl with he | hf
        · simp only at he
          subst he
          rfl
        · obtain ⟨a, c, e1, e2, e3⟩ := flatten_column f s hf
          have hmem : (n, .sparse) ∈ fs := by
            rcases List.mem_cons.mp hn with he | h
            · cases he
              exact hf.elim
            · exact h
          rw [pandasData, e1]
          simp only [e2]
          rw [ih hmem shapes (by simpa using hl) (fun k f' s' a b => h (k + 1) f' s' (by simpa using a) (by simpa using b))]
  unfold toPandas
  rw [hd]

/-- C79 is violated if a feature has several values per instance: with two instances of three values, the data frame has
six rows. -/
theorem C79_rows_violated : ∃ f, FeatureOk [2, 3] f ∧ ∃ c, toPandas [(txt "x", f)] = .ok [(txt "x", c)] ∧ c.length = 6 :=
  ⟨.dense ⟨⟨[2, 3], [3, 1], 6⟩, ⟨.uint8, [[1], [2], [3], [4], [5], [6]]⟩⟩, ⟨rfl, rfl, by decide⟩, _, rfl, rfl⟩

/-- C79 is violated if only one feature has several values per instance: the example is refused. -/
theorem C79_mixed_violated : ∃ f g, FeatureOk [2, 3] f ∧ FeatureOk [2, 1] g ∧
    toPandas [(txt "x", f), (txt "y", g)] = .err .invalidArgument :=
  ⟨.dense ⟨⟨[2, 3], [3, 1], 6⟩, ⟨.uint8, [[1], [2], [3], [4], [5], [6]]⟩⟩, .dense ⟨⟨[2, 1], [1, 1], 2⟩, ⟨.uint8, [[1], [2]]⟩⟩,
    ⟨rfl, rfl, by decide⟩, ⟨rfl, rfl, by decide⟩, by decide +kernel⟩

/-- C79 is violated for a tensor with a negative stride, which the constructor of `DenseTensor` accepts: the elements are
read from in front of the first one. -/
theorem C79_negative_stride_violated : ∃ info, denseTensor [2] [-1] 2 = .ok info ∧
    toPandas [(txt "x", .dense ⟨info, ⟨.uint8, [[7], [8]]⟩⟩)] = .ub "read beyond the buffer" :=
  ⟨⟨[2], [-1], 2⟩, by decide, by decide +kernel⟩

end Mlio
