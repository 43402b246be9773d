import Verif.Proofs.Tensor

/-!
# C42, C43, C59: tensors and schemas
-/

namespace Mlio
open Spec

/-! ## C42 -/

/-- C42, first half: every element of a dense tensor that could be constructed is inside its data.

Partial: the shape must not be empty, the strides not negative, and the exact extent must fit into a `size_t`
(the code adds it up modulo `2 ^ 64`); see the three `_violated` theorems.  The bounds on dimensions and strides say
that they are values of their C++ types. -/
theorem C42_in_bounds_partial (shape : List Nat) (strides : List Int) (size : Nat) (t : TensorInfo)
    (hsz : ∀ d ∈ shape, d < 2 ^ 64) (hss : ∀ s ∈ t.strides, s < 2 ^ 63)
    (h : denseTensor shape strides size = .ok t)
    (hne : shape ≠ []) (hpos : ∀ s ∈ t.strides, 0 ≤ s) (hext : extent shape t.strides + 1 < 2 ^ 64)
    (idx : List Nat) (hi : InShape idx shape) :
    0 ≤ offset idx t.strides ∧ offset idx t.strides < size := by
  unfold denseTensor at h
  cases hs : tensorStrides shape strides with
  | err e => rw [hs] at h; simp at h
  | ub e => rw [hs] at h; simp at h
  | ok ss =>
    rw [hs] at h
    simp only at h
    cases hv : validateDataSize shape ss size with
    | err e => rw [hv] at h; simp at h
    | ub e => rw [hv] at h; simp at h
    | ok u =>
      rw [hv] at h
      simp only [Res.ok.injEq] at h
      subst h
      simp only at hss hpos hext ⊢
      unfold validateDataSize at hv
      rw [if_neg (by simpa using hne)] at hv
      have hp := inShape_pos idx shape hi
      rw [lastIndex_exact shape ss 0 (fun d hd => ⟨hp d hd, hsz d hd⟩)
        (fun s hs' => ⟨by have := hpos s hs'; omega, hss s hs'⟩) (by omega)] at hv
      simp only at hv
      have hb := offset_bounds idx shape ss hi hpos
      rw [Nat.mod_eq_of_lt (by omega)] at hv
      by_cases hc : 0 + extent shape ss + 1 > size
      · rw [if_pos hc] at hv; simp at hv
      · exact ⟨hb.1, by omega⟩

/-- A transposed 3×2 matrix within six elements. -/
example : denseTensor [2, 3] [1, 2] 6 = .ok ⟨[2, 3], [1, 2], 6⟩ ∧ InShape [1, 2] [2, 3] ∧
    offset [1, 2] [1, 2] = 5 ∧ extent [2, 3] [1, 2] + 1 < 2 ^ 64 := by decide

/-- C42, second half: with default strides construction succeeds exactly when the data holds the product of the
dimensions; the strides are row-major, every element is inside the data and no two elements share a position.
The strides and the product must be representable, otherwise see `C42_wraparound_violated`. -/
theorem C42_default_strides (shape : List Nat) (size : Nat) (hne : shape ≠ []) (hfit : StridesFit shape)
    (hprod : numElements shape < 2 ^ 64) :
    ((∃ t, denseTensor shape [] size = .ok t) ↔ numElements shape ≤ size) ∧
    (∀ t, denseTensor shape [] size = .ok t →
      t.strides = rowMajor shape ∧
      (∀ idx, InShape idx shape → 0 ≤ offset idx t.strides ∧ offset idx t.strides < size) ∧
      (∀ idx idx', InShape idx shape → InShape idx' shape →
        offset idx t.strides = offset idx' t.strides → idx = idx')) ∧
    (size < numElements shape → denseTensor shape [] size = .err .invalidArgument) := by
  obtain ⟨r, hr, hm⟩ := lastIndex_rowMajor shape 0 hfit hne
  have hds := defaultStrides_rowMajor shape hfit
  have hm' : (r + 1) % 2 ^ 64 = numElements shape := by
    rw [hm, Nat.zero_add, Nat.mod_eq_of_lt hprod]
  have hd : denseTensor shape [] size =
      if numElements shape > size then .err .invalidArgument else .ok ⟨shape, rowMajor shape, size⟩ := by
    unfold denseTensor tensorStrides
    simp only [List.isEmpty_nil, if_true, hds]
    unfold validateDataSize
    rw [if_neg (by simpa using hne), hr]
    simp only [hm']
    by_cases hc : numElements shape > size
    · rw [if_pos hc, if_pos hc]
    · rw [if_neg hc, if_neg hc]
  refine ⟨⟨?_, ?_⟩, ?_, ?_⟩
  · rintro ⟨t, ht⟩
    rw [hd] at ht
    by_cases hc : numElements shape > size
    · rw [if_pos hc] at ht; simp at ht
    · omega
  · intro hle
    exact ⟨_, by rw [hd, if_neg (by omega)]⟩
  · intro t ht
    rw [hd] at ht
    by_cases hc : numElements shape > size
    · rw [if_pos hc] at ht; simp at ht
    · rw [if_neg hc] at ht
      simp only [Res.ok.injEq] at ht
      subst ht
      refine ⟨rfl, ?_, ?_⟩
      · intro idx hi
        obtain ⟨n, hn, hl⟩ := offset_rowMajor idx shape hi
        simp only [hn]
        omega
      · intro idx idx' hi hi' he
        exact offset_rowMajor_inj idx idx' shape hi hi' he
  · intro hlt
    rw [hd, if_pos hlt]

example : StridesFit [2, 3, 4] ∧ numElements [2, 3, 4] = 24 ∧
    denseTensor [2, 3, 4] [] 24 = .ok ⟨[2, 3, 4], [12, 4, 1], 24⟩ ∧
    denseTensor [2, 3, 4] [] 23 = .err .invalidArgument ∧ denseTensor [0, 3] [] 0 = .ok ⟨[0, 3], [3, 1], 0⟩ := by
  decide

/-- A number of strides that differs from the number of dimensions is rejected. -/
theorem C42_stride_count (shape : List Nat) (strides : List Int) (size : Nat) (hne : strides ≠ [])
    (hl : strides.length ≠ shape.length) : denseTensor shape strides size = .err .invalidArgument := by
  unfold denseTensor tensorStrides
  rw [if_neg (by simpa using hne), if_pos hl]

example : denseTensor [2, 2] [1] 4 = .err .invalidArgument := by decide

/-- Not all tensors are in bounds: the extent is computed modulo `2 ^ 64`, so a tensor with `2 ^ 64` elements can be
made of an empty array. -/
theorem C42_wraparound_violated :
    ∃ (shape : List Nat) (t : TensorInfo), (∀ d ∈ shape, d < 2 ^ 64) ∧ denseTensor shape [] 0 = .ok t ∧
      InShape [1, 1] shape ∧ ¬ (offset [1, 1] t.strides < 0) :=
  ⟨[2 ^ 33, 2 ^ 31], ⟨[2 ^ 33, 2 ^ 31], [2 ^ 31, 1], 0⟩, by decide, by decide, by decide, by decide⟩

/-- Negative strides are accepted on the basis of their absolute value, but the data pointer is the start of the array:
the element with index 1 lies before it. -/
theorem C42_negative_stride_violated :
    ∃ t, denseTensor [2] [-1] 2 = .ok t ∧ InShape [1] [2] ∧ offset [1] t.strides < 0 :=
  ⟨⟨[2], [-1], 2⟩, by decide, by decide, by decide⟩

/-- A tensor without dimensions has one element, but its data may be empty. -/
theorem C42_scalar_violated :
    ∃ t, denseTensor [] [] 0 = .ok t ∧ InShape [] [] ∧ ¬ (offset [] t.strides < 0) :=
  ⟨⟨[], [], 0⟩, by decide, by decide, by decide⟩

/-- C42 with given strides: construction succeeds exactly when the data reaches the last element that the strides span, and the tensor has the
strides it was given.

Partial: no dimension is zero and the span fits into a `size_t`; see `C42_empty_violated` and `C42_wraparound_violated`.  The lower bound on the
strides leaves out one value of their type, see `C42_smallest_stride_violated`. -/
theorem C42_given_strides_partial (shape : List Nat) (strides : List Int) (size : Nat) (hne : shape ≠ []) (hl : strides.length = shape.length)
    (hd : ∀ d ∈ shape, 0 < d ∧ d < 2 ^ 64) (hs : ∀ s ∈ strides, -2 ^ 63 < s ∧ s < 2 ^ 63) (hext : extent shape strides + 1 < 2 ^ 64) :
    denseTensor shape strides size =
      if extent shape strides < size then .ok ⟨shape, strides, size⟩ else .err .invalidArgument := by
  have hse : ¬ strides.isEmpty = true := by
    cases strides with
    | nil => cases shape with | nil => exact absurd rfl hne | cons => cases hl
    | cons => simp
  have hve : ¬ shape.isEmpty = true := by simpa using hne
  have ht : tensorStrides shape strides = .ok strides := by unfold tensorStrides; rw [if_neg hse, if_neg (by omega)]
  have hli := lastIndex_exact shape strides 0 hd hs (by omega)
  rw [Nat.zero_add] at hli
  unfold denseTensor
  rw [ht]
  unfold validateDataSize
  simp only [if_neg hve, hli]
  rw [Nat.mod_eq_of_lt hext]
  by_cases hc : extent shape strides < size
  · rw [if_pos hc, if_neg (by omega)]
  · rw [if_neg hc, if_pos (by omega)]

/-- Every third element of ten: the span is 9. -/
example : denseTensor [4] [3] 10 = .ok ⟨[4], [3], 10⟩ ∧ denseTensor [4] [3] 9 = .err .invalidArgument ∧ extent [4] [3] = 9 := by decide

/-- The smallest stride of its type has no absolute value: the tensor cannot be constructed or rejected, whatever the other dimensions are. -/
theorem C42_smallest_stride_violated (shape : List Nat) (strides : List Int) (size : Nat) (hl : strides.length = shape.length)
    (hm : -2 ^ 63 ∈ strides) : ∃ w, denseTensor shape strides size = .ub w := by
  have key : ∀ (shape : List Nat) (strides : List Int) (acc : Nat), strides.length = shape.length → -2 ^ 63 ∈ strides →
      ∃ w, lastIndex shape strides acc = .ub w := by
    intro shape
    induction shape with
    | nil => intro strides acc hl hm; cases strides <;> simp_all
    | cons d ds ih =>
      intro strides acc hl hm
      cases strides with
      | nil => cases hm
      | cons s ss =>
        unfold lastIndex
        by_cases h : s = -2 ^ 63
        · exact ⟨_, if_pos h⟩
        · rw [if_neg h]
          refine ih ss _ (by simpa using hl) ?_
          rcases List.mem_cons.1 hm with h' | h'
          · exact absurd h'.symm h
          · exact h'
  have hse : ¬ strides.isEmpty = true := by cases strides <;> simp_all
  have hve : ¬ shape.isEmpty = true := by cases strides <;> cases shape <;> simp_all
  obtain ⟨w, hw⟩ := key shape strides 0 hl hm
  refine ⟨w, ?_⟩
  unfold denseTensor tensorStrides
  rw [if_neg hse, if_neg (by omega)]
  unfold validateDataSize
  simp only [if_neg hve, hw]

example : ∃ w, denseTensor [2, 3] [1, -2 ^ 63] 6 = .ub w := ⟨_, rfl⟩

/-- A tensor that has no elements is rejected because of its stride, though nothing of its data would be used. -/
theorem C42_empty_violated (k : Nat) (h : 2 ≤ k) (h' : k < 2 ^ 63) : denseTensor [0] [(k : Int)] 0 = .err .invalidArgument := by
  have ha : asSize ((k : Int)).natAbs = k := by rw [Int.natAbs_natCast]; exact asSize_nat _ (by omega)
  have h1 : (2 ^ 64 - 1) * k % 2 ^ 64 = 2 ^ 64 - k := by omega
  have hl : lastIndex [0] [(k : Int)] 0 = .ok (2 ^ 64 - k) := by
    unfold lastIndex
    rw [if_neg (by omega), ha]
    unfold lastIndex
    congr 1
    omega
  have ht : tensorStrides [0] [(k : Int)] = .ok [(k : Int)] := rfl
  unfold denseTensor
  rw [ht]
  unfold validateDataSize
  simp only [hl, List.isEmpty_cons, Bool.false_eq_true, if_false]
  rw [if_pos (by omega)]

example : denseTensor [0] [3] 0 = .err .invalidArgument := by decide

/-- Strides that do not fit are a signed overflow. -/
theorem C42_stride_overflow_violated : denseTensor [1, 2 ^ 32, 2 ^ 32] [] 0 = .ub "signed overflow" := by decide

/-! ## C43 -/

/-- C43: a schema is accepted exactly if its attribute names are distinct; otherwise the attribute list is an
invalid argument. -/
theorem C43_accepted_iff (attrs : List Attr) :
    ((∃ s, makeSchema attrs = .ok s) ↔ (attrs.map Attr.name).Nodup) ∧
    (¬ (attrs.map Attr.name).Nodup → makeSchema attrs = .err .invalidArgument) := by
  unfold makeSchema
  rcases schemaLoop_spec attrs 0 [] with ⟨he, hn⟩ | ⟨m, he, hnd, _⟩
  · have : ¬ (attrs.map Attr.name).Nodup := fun h => hn ⟨h, by simp [List.lookup]⟩
    simp [he, this]
  · simp [he, hnd]

/-- C43: a name is looked up to the index of the attribute with that name, or to nothing if there is none. -/
theorem C43_lookup (attrs : List Attr) (s : Schema) (h : makeSchema attrs = .ok s) (name : Bytes) :
    s.attrs = attrs ∧
    (∀ i : Nat, s.getIndex name = some i ↔ ∃ a, attrs[i]? = some a ∧ a.name = name) ∧
    (s.getIndex name = none ↔ ∀ a ∈ attrs, a.name ≠ name) := by
  unfold makeSchema at h
  rcases schemaLoop_spec attrs 0 [] with ⟨he, _⟩ | ⟨m, he, hnd, _, hi, ho⟩
  · rw [he] at h; simp at h
  · rw [he] at h
    simp only [Res.ok.injEq] at h
    subst h
    simp only [Nat.zero_add] at hi
    have hnone : (∀ a ∈ attrs, a.name ≠ name) → m.lookup name = none := by
      intro hx
      rw [ho name (by
        intro hm
        obtain ⟨a, ha, hn⟩ := List.mem_map.1 hm
        exact hx a ha hn)]
      rfl
    have hsome : ∀ a ∈ attrs, a.name = name → ∃ j : Nat, attrs[j]? = some a ∧ m.lookup name = some j := by
      intro a ha hn
      obtain ⟨j, hj⟩ := List.mem_iff_getElem?.1 ha
      exact ⟨j, hj, by rw [← hn]; exact hi j a hj⟩
    refine ⟨rfl, fun i => ⟨?_, ?_⟩, ⟨?_, ?_⟩⟩
    · intro hg
      by_cases hx : ∀ a ∈ attrs, a.name ≠ name
      · have := hnone hx
        unfold Schema.getIndex at hg
        simp only at hg
        rw [this] at hg; simp at hg
      · obtain ⟨a, hx⟩ := Classical.not_forall.1 hx
        obtain ⟨ha, hn⟩ := Classical.not_imp.1 hx
        have hn : a.name = name := Classical.not_not.1 hn
        obtain ⟨j, hj, hl⟩ := hsome a ha hn
        unfold Schema.getIndex at hg
        simp only at hg
        rw [hl] at hg
        simp only [Option.some.injEq] at hg
        subst hg
        exact ⟨a, hj, hn⟩
    · rintro ⟨a, ha, hn⟩
      unfold Schema.getIndex
      rw [← hn]; exact hi i a ha
    · intro hg a ha hn
      obtain ⟨j, _, hl⟩ := hsome a ha hn
      unfold Schema.getIndex at hg
      simp only at hg
      rw [hl] at hg; simp at hg
    · intro hx; exact hnone hx

/-- C43: schemas are equal exactly if all their attributes are, and then their hashes are equal too, whatever
the hash functions of the library are. -/
theorem C43_equal_hash (s t : Schema) (H : Hashes) :
    (s.eq t = true ↔ s.attrs = t.attrs) ∧ (s.eq t = true → s.hash H = t.hash H) := by
  have h : s.eq t = true ↔ s.attrs = t.attrs := attrsEq_iff _ _
  exact ⟨h, fun he => by unfold Schema.hash; rw [h.1 he]⟩

/-- C43 for examples: a feature is found by the name of its attribute; the access is always in range. -/
theorem C43_find_feature {T : Type} (attrs : List Attr) (s : Schema) (fs : List T) (e : Example T)
    (h : makeSchema attrs = .ok s) (he : newExample s fs = .ok e) (name : Bytes) :
    (∀ (i : Nat) (a : Attr), attrs[i]? = some a → a.name = name → e.findFeature name = .ok fs[i]? ∧ fs[i]?.isSome) ∧
    ((∀ a ∈ attrs, a.name ≠ name) → e.findFeature name = .ok none) ∧
    (e.findFeature name).NoUB := by
  obtain ⟨ha, hl, hn⟩ := C43_lookup attrs s h name
  unfold newExample at he
  by_cases hc : s.attrs.length ≠ fs.length
  · rw [if_pos hc] at he; simp at he
  rw [if_neg hc] at he
  simp only [Res.ok.injEq] at he
  subst he
  have hlen : attrs.length = fs.length := by rw [← ha]; simpa using hc
  have hin : ∀ (i : Nat) (a : Attr), attrs[i]? = some a → ∃ t, fs[i]? = some t := by
    intro i a hi
    have : i < fs.length := by
      rw [← hlen]; exact (List.getElem?_eq_some_iff.1 hi).1
    exact ⟨fs[i], by simp [this]⟩
  refine ⟨?_, ?_, ?_⟩
  · intro i a hi hna
    obtain ⟨t, ht⟩ := hin i a hi
    unfold Example.findFeature
    simp only [(hl i).2 ⟨a, hi, hna⟩, ht]
    simp
  · intro hx
    unfold Example.findFeature
    simp only [hn.2 hx]
  · unfold Example.findFeature
    cases hg : s.getIndex name with
    | none => simp [Res.NoUB]
    | some i =>
      obtain ⟨a, hi, _⟩ := (hl i).1 hg
      obtain ⟨t, ht⟩ := hin i a hi
      simp [ht, Res.NoUB]

def demoAttrs : List Attr := [⟨[97], .int64, [10, 1], [1, 1], false⟩, ⟨[98], .float32, [10, 1], [1, 1], true⟩]

example : (∃ s, makeSchema demoAttrs = .ok s ∧ s.getIndex [98] = some 1 ∧ s.getIndex [99] = none ∧
    (∃ e, newExample s ["x", "y"] = .ok e ∧ e.findFeature [98] = .ok (some "y"))) ∧
    makeSchema (demoAttrs ++ demoAttrs) = .err .invalidArgument := by
  refine ⟨⟨⟨demoAttrs, [([98], 1), ([97], 0)]⟩, by rfl, by rfl, by rfl, ⟨_, by rfl, by rfl⟩⟩, by rfl⟩

/-! ## C59 -/

/-- C59 does not hold: from arrays of consistent sizes the constructor reads through a null pointer, for every
shape with at most two dimensions whose strides are representable. -/
theorem C59_consistent_violated (shape : List Nat) (size rows : Nat) (hr : shape.length ≤ 2)
    (hfit : StridesFit shape) : csrTensor shape size size rows = .ub "null pointer dereferenced" := by
  unfold csrTensor tensorStrides
  simp only [List.isEmpty_nil, if_true, defaultStrides_rowMajor shape hfit]
  rw [if_neg (by omega), if_neg (by simp)]

/-- C59, the part that holds: more than two dimensions or a number of indices that differs from the number of
values are rejected.  Missing: acceptance of consistent arrays and the check of the index pointers, see
`C59_consistent_violated`. -/
theorem C59_rejects_partial (shape : List Nat) (size indices indptr : Nat) (hfit : StridesFit shape)
    (h : shape.length > 2 ∨ size ≠ indices) : csrTensor shape size indices indptr = .err .invalidArgument := by
  unfold csrTensor tensorStrides
  simp only [List.isEmpty_nil, if_true, defaultStrides_rowMajor shape hfit]
  by_cases hr : shape.length > 2
  · rw [if_pos hr]
  · rw [if_neg hr, if_pos (by rcases h with h | h; exact absurd h hr; exact h)]

example : StridesFit [3, 4] ∧ csrTensor [3, 4] 5 5 4 = .ub "null pointer dereferenced" ∧
    csrTensor [3, 4] 5 6 4 = .err .invalidArgument := by decide

/-- **C62.** A COO tensor is accepted exactly when there is one coordinate array per dimension and each of them is as
long as the data array; it then has the shape and the number of values given.  Everything else is an
`std::invalid_argument`. -/
theorem C62_coo_constructor (shape : List Nat) (size : Nat) (coords : List Nat) (hfit : StridesFit shape) :
    ((coords.length = shape.length ∧ ∀ c ∈ coords, c = size) →
      ∃ t, cooTensor shape size coords = .ok t ∧ t.shape = shape ∧ t.size = size) ∧
    (¬ (coords.length = shape.length ∧ ∀ c ∈ coords, c = size) →
      cooTensor shape size coords = .err .invalidArgument) := by
  unfold cooTensor tensorStrides
  simp only [List.isEmpty_nil, if_true, defaultStrides_rowMajor shape hfit]
  by_cases hl : shape.length = coords.length
  · rw [if_neg (by simpa using hl)]
    by_cases ha : ∀ c ∈ coords, c = size
    · rw [if_neg (by simpa using ha)]
      exact ⟨fun _ => ⟨_, rfl, rfl, rfl⟩, fun h => absurd ⟨hl.symm, ha⟩ h⟩
    · rw [if_pos (by simpa using ha)]
      exact ⟨fun h => absurd h.2 ha, fun _ => rfl⟩
  · rw [if_pos hl]
    exact ⟨fun h => absurd h.1.symm hl, fun _ => rfl⟩

example : StridesFit [3, 4] ∧ (∃ t, cooTensor [3, 4] 5 [5, 5] = .ok t) ∧
    cooTensor [3, 4] 5 [5, 6] = .err .invalidArgument ∧ cooTensor [3, 4] 5 [5] = .err .invalidArgument :=
  ⟨by decide, ⟨_, rfl⟩, by decide, by decide⟩

end Mlio
