import Verif.Proofs.Exchange

/-!
# C58, C64: arrays that are exchanged with Python and with other frameworks
-/

namespace Mlio
open Spec

/-! ## C58 -/

/-- C58, wrapping: the data type that is chosen for a format string and an item size means what the format string
means and has elements of that size. -/
theorem C58_wrap (fmt : List Char) (n : Nat) (dt : DataType) (h : getDataType fmt n = some dt) :
    FormatMeans fmt (kindOf dt) ∧ itemSize dt = n := by
  obtain ⟨h1, c, h2, h3⟩ := getDataType_item h
  exact ⟨⟨c, h2, h3⟩, h1⟩

example : getDataType ['@', 'l'] 8 = some .int64 ∧ getDataType ['l'] 4 = some .int32 := by decide

/-- C58, wrapping: every format of the `struct` module in its native size is accepted, but for `n` (`ssize_t`). -/
theorem C58_accepted_partial (fmt : List Char) (c : Char) (k : Kind)
    (hf : fmt = [c] ∨ fmt = ['@', c] ∨ fmt = ['=', c]) (hk : pyKind c = some k) (hn : c ≠ 'n') :
    ∃ dt, getDataType fmt (nativeSize c) = some dt ∧ kindOf dt = k ∧ itemSize dt = nativeSize c := by
  have key : ∃ dt, formatType c (nativeSize c) = some dt ∧ kindOf dt = k ∧ itemSize dt = nativeSize c := by
    unfold pyKind at hk
    split at hk
    all_goals first
      | exact absurd rfl hn
      | (simp only [Option.some.injEq] at hk; subst hk; exact ⟨_, rfl, rfl, rfl⟩)
      | simp at hk
  rcases hf with rfl | rfl | rfl
  · exact key
  · simpa [getDataType] using key
  · simpa [getDataType] using key

example : pyKind 'H' = some .unsigned ∧ nativeSize 'H' = 2 := by decide

/-- C58: anything else is rejected with an invalid argument error, before an element is read: a format that means
nothing (or is in the other byte order), or elements of another size than any data type of that kind has. -/
theorem C58_rejected (b : PyBuf) (cpy : Bool)
    (h : ∀ dt, ¬ (FormatMeans b.fmt (kindOf dt) ∧ itemSize dt = b.item)) :
    makeDeviceArray b cpy = .err .invalidArgument := by
  unfold makeDeviceArray
  cases hd : getDataType b.fmt b.item with
  | none => rfl
  | some dt => exact absurd (C58_wrap _ _ _ hd) (h dt)

/-- Big endian numbers. -/
example : ∀ dt, ¬ (FormatMeans ['>', 'i'] (kindOf dt) ∧ itemSize dt = 4) := by
  rintro dt ⟨⟨c, hf, _⟩, _⟩
  rcases hf with h | h | h <;> simp at h

/-- Strings are not shared with Python. -/
theorem C58_strings (b : PyBuf) (h : getDataType b.fmt b.item = some .string) :
    makeDeviceArray b false = .err .invalidArgument := by
  unfold makeDeviceArray
  rw [h]; simp

example : getDataType ['O'] 8 = some .string := by decide

/-- C58, exporting to DLPack: the type has the kind and the size of the elements; strings are refused. -/
theorem C58_dlpack (dt : DataType) :
    (dt ≠ .string → ∃ ty, asDlDataType dt = .ok ty ∧ DlMeans ty (kindOf dt) (itemSize dt)) ∧
    (dt = .string → asDlDataType dt = .err .notSupported) := by
  constructor
  · intro h
    cases dt <;> first | exact absurd rfl h | exact ⟨_, rfl, rfl, rfl, rfl⟩
  · rintro rfl; rfl

/-- C58, exporting to Python: the format means the kind of the elements, and the item size is theirs; reading the array
back gives the data type.

Partial: not for the data type `size`, see `C58_size_violated`. -/
theorem C58_export_partial (t : DenseT) (h : t.arr.dt ≠ .size) :
    FormatMeans (tensorToPy t).fmt (kindOf t.arr.dt) ∧ (tensorToPy t).item = itemSize t.arr.dt ∧
    getDataType (tensorToPy t).fmt (tensorToPy t).item = some t.arr.dt := by
  unfold tensorToPy
  simp only
  cases hd : t.arr.dt <;>
    first
      | exact absurd hd h
      | exact ⟨⟨_, Or.inl rfl, rfl⟩, rfl, by decide⟩

/-- C58 fails for sizes: they are unsigned, and Python is told that they are signed. -/
theorem C58_size_violated : ∀ t : DenseT, t.arr.dt = .size →
    kindOf t.arr.dt = .unsigned ∧ FormatMeans (tensorToPy t).fmt .signed ∧
    ¬ FormatMeans (tensorToPy t).fmt (kindOf t.arr.dt) := by
  intro t h
  unfold tensorToPy
  rw [h]
  refine ⟨rfl, ⟨'q', Or.inl rfl, rfl⟩, ?_⟩
  rintro ⟨c, hf, hk⟩
  rcases hf with hf | hf | hf
  · simp only [exportFormat, List.cons.injEq, and_true] at hf
    subst hf
    simp [pyKind, kindOf] at hk
  · simp at hf
  · simp at hf

/-! ## C64 -/

/-- C64, from NumPy: an array in C order, whatever its data type, becomes a tensor with the same shape and the same
elements.

Partial: the elements must have eight bytes (see `C64_item_violated`), and the sizes must be representable. -/
theorem C64_from_numpy_partial (a : PyBuf) (cpy : Bool) (dt : DataType) (hv : PyValid a) (hc : Contiguous a)
    (hd : getDataType a.fmt a.item = some dt) (hs : dt = .string → cpy = true) (h8 : a.item = 8)
    (hfit : StridesFit a.shape) (hn : numElements a.shape < 2 ^ 64) :
    ∃ t, numpyToTensor a cpy = .ok t ∧ t.arr.dt = dt ∧ SameArray t a := by
  have hroom := contiguous_room a hv hc
  have hst : a.strides.map (fun s => s.fdiv 8) = rowMajor a.shape := by
    rw [hc, h8]; exact map_fdiv_mul _
  have hlen : (rowMajor a.shape).length = a.shape.length := by rw [← hst, List.length_map]; exact hv.1
  have hm : makeDeviceArray a cpy = .ok ⟨dt, consecutive a.item a.size (a.mem.drop a.ptr)⟩ := by
    unfold makeDeviceArray
    rw [hd]
    simp only
    rw [if_neg (by rintro ⟨h1, h2⟩; exact h2 (hs h1)), if_neg (by omega)]
  have hdense : denseTensor a.shape (rowMajor a.shape) a.size = .ok ⟨a.shape, rowMajor a.shape, a.size⟩ := by
    unfold denseTensor
    have h1 : tensorStrides a.shape (rowMajor a.shape) = .ok (rowMajor a.shape) := by
      unfold tensorStrides
      cases hsh : a.shape with
      | nil => rfl
      | cons d ds => rw [if_neg (by simp [rowMajor]), if_neg (by rw [hsh] at hlen; simpa using hlen)]
    have h2 : validateDataSize a.shape (rowMajor a.shape) a.size = .ok () := by
      unfold validateDataSize
      by_cases hne : a.shape = []
      · rw [hne]; rfl
      · obtain ⟨r, hr, he⟩ := lastIndex_rowMajor a.shape 0 hfit hne
        rw [if_neg (by simpa using hne), hr]
        simp only
        rw [size_eq, he, if_neg]
        have := Nat.mod_le (0 + numElements a.shape) (2 ^ 64)
        omega
    rw [h1]
    simp only [h2]
  refine ⟨⟨⟨a.shape, rowMajor a.shape, a.size⟩, ⟨dt, consecutive a.item a.size (a.mem.drop a.ptr)⟩⟩, ?_, rfl, rfl, ?_⟩
  · unfold numpyToTensor makeDenseTensor
    rw [hm, hst]
    simp only [Option.getD_some, consecutive_length, hdense]
  · intro idx hi
    obtain ⟨n, ho, hlt⟩ := offset_rowMajor idx a.shape hi
    unfold tensorElement pyElement
    simp only [ho]
    rw [if_pos (by omega), Int.toNat_natCast, consecutive_get _ _ _ _ (by rw [size_eq]; exact hlt), List.drop_drop]
    rw [hc, offset_scale, ho]
    congr 3
    have : ((a.ptr : Int) + (a.item : Int) * (n : Int)) = ((a.ptr + n * a.item : Nat) : Int) := by push_cast; grind
    rw [this, Int.toNat_natCast]

/-- A 2×1 array of doubles. -/
def exDoubles : PyBuf := ⟨['d'], 8, List.range 16 |>.map UInt8.ofNat, 0, [2, 1], [8, 8]⟩

example : getDataType exDoubles.fmt exDoubles.item = some .float64 ∧ Contiguous exDoubles ∧
    StridesFit exDoubles.shape := by
  refine ⟨by decide, rfl, by decide⟩

/-- C64, from NumPy: an array whose strides are not negative, such as a transposed one, becomes a tensor with the same
shape and the same elements, or it is refused.

Partial: only for elements of eight bytes, and only if as many elements as the array has lie in its memory from its
first one on, see the `_violated` theorems. -/
theorem C64_strided_partial (a : PyBuf) (cpy : Bool) (h8 : a.item = 8) (hlen : a.strides.length = a.shape.length)
    (hst : ∀ s ∈ a.strides, 0 ≤ s ∧ 8 ∣ s ∧ s < 2 ^ 63) (hd : ∀ d ∈ a.shape, d < 2 ^ 64)
    (hroom : a.ptr + a.size * a.item ≤ a.mem.length) (hext : extent a.shape a.strides + 1 < 2 ^ 64) :
    numpyToTensor a cpy = .err .invalidArgument ∨ ∃ t, numpyToTensor a cpy = .ok t ∧ SameArray t a := by
  unfold numpyToTensor makeDenseTensor
  cases hm : makeDeviceArray a cpy with
  | err e =>
    left
    unfold makeDeviceArray at hm
    cases hdt : getDataType a.fmt a.item with
    | none => rw [hdt] at hm; simp only [Res.err.injEq] at hm; rw [← hm]
    | some dt =>
      rw [hdt] at hm
      simp only at hm
      split at hm
      · simp only [Res.err.injEq] at hm; rw [← hm]
      · split at hm <;> simp at hm
  | ub w =>
    unfold makeDeviceArray at hm
    cases hdt : getDataType a.fmt a.item with
    | none => rw [hdt] at hm; simp at hm
    | some dt =>
      rw [hdt] at hm
      simp only at hm
      split at hm
      · simp at hm
      · rw [if_neg (by omega)] at hm; simp at hm
  | ok arr =>
    have harr : arr.elems = consecutive a.item a.size (a.mem.drop a.ptr) := by
      unfold makeDeviceArray at hm
      cases hdt : getDataType a.fmt a.item with
      | none => rw [hdt] at hm; simp at hm
      | some dt =>
        rw [hdt] at hm
        simp only at hm
        split at hm
        · simp at hm
        · rw [if_neg (by omega)] at hm
          simp only [Res.ok.injEq] at hm
          rw [← hm]
    simp only [Option.getD_some]
    generalize hs8 : a.strides.map (fun s => s.fdiv 8) = ss
    have hback : ss.map (fun s => 8 * s) = a.strides := by
      rw [← hs8]; exact map_mul_fdiv _ (fun s hs => (hst s hs).2.1)
    have hss : ∀ s ∈ ss, 0 ≤ s ∧ s < 2 ^ 63 := by
      intro s hs
      have hin : 8 * s ∈ a.strides := by rw [← hback]; exact List.mem_map_of_mem hs
      have := hst _ hin
      omega
    have hexts : ∀ (sh : List Nat) (l : List Int), extent sh l ≤ extent sh (l.map (fun s => 8 * s)) := by
      intro sh
      induction sh with
      | nil => intro l; simp [extent]
      | cons d ds ih =>
        intro l
        cases l with
        | nil => simp [extent]
        | cons s l =>
          simp only [List.map_cons, extent]
          have h1 := ih l
          have h2 : (d - 1) * s.natAbs ≤ (d - 1) * (8 * s).natAbs := Nat.mul_le_mul_left _ (by omega)
          omega
    have hext' : extent a.shape ss + 1 < 2 ^ 64 := by
      have := hexts a.shape ss
      rw [hback] at this
      omega
    have hlen' : ss.length = a.shape.length := by rw [← hs8, List.length_map, hlen]
    have hts : tensorStrides a.shape ss = .ok ss := by
      unfold tensorStrides
      cases hsh : a.shape with
      | nil =>
        have : ss = [] := List.eq_nil_of_length_eq_zero (by rw [hlen', hsh]; rfl)
        rw [this]; rfl
      | cons d ds =>
        rw [if_neg (by intro h; rw [List.isEmpty_iff.1 h, hsh] at hlen'; simp at hlen'),
          if_neg (by rw [hsh] at hlen'; simpa using hlen')]
    have hsz : arr.elems.length = a.size := by rw [harr, consecutive_length]
    cases hv : validateDataSize a.shape ss arr.elems.length with
    | ub w =>
      unfold validateDataSize at hv
      split at hv
      · simp at hv
      · obtain ⟨r, hr⟩ := lastIndex_cases a.shape ss 0 (fun s hs => (hss s hs).1)
        rw [hr] at hv
        simp only at hv
        split at hv <;> simp at hv
    | err e =>
      left
      have he : e = .invalidArgument := by
        unfold validateDataSize at hv
        split at hv
        · simp at hv
        · obtain ⟨r, hr⟩ := lastIndex_cases a.shape ss 0 (fun s hs => (hss s hs).1)
          rw [hr] at hv
          simp only at hv
          split at hv
          · simpa using hv.symm
          · simp at hv
      unfold denseTensor
      rw [hts]
      simp only [hv, he]
    | ok u =>
      right
      refine ⟨⟨⟨a.shape, ss, arr.elems.length⟩, arr⟩, ?_, rfl, ?_⟩
      · unfold denseTensor
        rw [hts]
        simp only [hv]
      · intro idx hi
        have hb := offset_bounds idx a.shape ss hi (fun s hs => (hss s hs).1)
        have hlt : offset idx ss < a.size := by
          by_cases hne : a.shape = []
          · have h1 : ss = [] := List.eq_nil_of_length_eq_zero (by rw [hlen', hne]; rfl)
            rw [h1, size_eq, hne]
            cases idx <;> simp [offset, numElements]
          · unfold validateDataSize at hv
            rw [if_neg (by simpa using hne)] at hv
            have hp := inShape_pos idx a.shape hi
            rw [lastIndex_exact a.shape ss 0 (fun d hd' => ⟨hp d hd', hd d hd'⟩)
              (fun s hs' => ⟨by have := hss s hs'; omega, (hss s hs').2⟩) (by omega)] at hv
            simp only at hv
            rw [Nat.mod_eq_of_lt (by omega), hsz] at hv
            split at hv
            · simp at hv
            · omega
        unfold tensorElement pyElement
        simp only
        obtain ⟨n, hn⟩ : ∃ n : Nat, offset idx ss = n := ⟨(offset idx ss).toNat, by omega⟩
        rw [if_pos hb.1, ← hback, offset_scale, hn, Int.toNat_natCast, harr, consecutive_get _ _ _ _ (by omega),
          List.drop_drop, h8]
        congr 3
        omega

/-- A transposed 2×2 array. -/
def exTransposed : PyBuf := ⟨['q'], 8, List.range 32 |>.map UInt8.ofNat, 0, [2, 2], [8, 16]⟩

example : (∃ t, numpyToTensor exTransposed true = .ok t) ∧ exTransposed.ptr + exTransposed.size * 8 ≤ exTransposed.mem.length ∧
    extent exTransposed.shape exTransposed.strides + 1 < 2 ^ 64 := by
  refine ⟨⟨_, rfl⟩, by decide, by decide⟩

/-- C64 fails for elements that have not eight bytes: the strides of an array of two 32 bit numbers become zero, and
both elements of the tensor are the first one. -/
theorem C64_item_violated :
    ∃ a : PyBuf, PyValid a ∧ Contiguous a ∧ getDataType a.fmt a.item = some .int32 ∧
      ∃ t, numpyToTensor a true = .ok t ∧ ¬ SameArray t a := by
  refine ⟨⟨['i'], 4, [1, 0, 0, 0, 2, 0, 0, 0], 0, [2], [4]⟩, ?_, rfl, by decide, _, rfl, ?_⟩
  · refine ⟨rfl, by decide, ?_⟩
    intro idx hi
    match idx, hi with
    | [i], h =>
      have := h.1
      simp only [offset, List.length_cons, List.length_nil]
      omega
  · intro h
    have := h.2 [1] (by decide)
    revert this
    decide

/-- C64 fails for a reversed array (`a[::-1]`): memory behind the array is read. -/
theorem C64_reversed_violated :
    ∃ a : PyBuf, PyValid a ∧ a.item = 8 ∧ getDataType a.fmt a.item = some .int64 ∧
      ∃ w, numpyToTensor a true = .ub w := by
  refine ⟨⟨['q'], 8, List.replicate 24 0, 16, [3], [-8]⟩, ?_, rfl, by decide, _, rfl⟩
  refine ⟨rfl, by decide, ?_⟩
  intro idx hi
  match idx, hi with
  | [i], h =>
    have := h.1
    simp only [offset, List.length_replicate]
    omega

/-- C64 fails for a broadcast array (`np.broadcast_to`): its one element is read three times, from three places. -/
theorem C64_broadcast_violated :
    ∃ a : PyBuf, PyValid a ∧ a.item = 8 ∧ getDataType a.fmt a.item = some .int64 ∧
      ∃ w, numpyToTensor a true = .ub w := by
  refine ⟨⟨['q'], 8, List.replicate 8 0, 0, [3], [0]⟩, ?_, rfl, by decide, _, rfl⟩
  refine ⟨rfl, by decide, ?_⟩
  intro idx hi
  match idx, hi with
  | [i], h =>
    simp only [offset, List.length_replicate]
    omega

/-- C64 fails for every second element of an array (`a[::2]`): it is refused, although it is an array of a supported
type. -/
theorem C64_step_violated :
    ∃ a : PyBuf, PyValid a ∧ a.item = 8 ∧ getDataType a.fmt a.item = some .int64 ∧
      numpyToTensor a true = .err .invalidArgument := by
  refine ⟨⟨['q'], 8, List.replicate 32 0, 0, [2], [16]⟩, ?_, rfl, by decide, by decide⟩
  refine ⟨rfl, by decide, ?_⟩
  intro idx hi
  match idx, hi with
  | [i], h =>
    have := h.1
    simp only [offset, List.length_replicate]
    omega

/-- C64, to NumPy: the array has the shape of the tensor and at each place the element of the tensor, whatever the
strides. -/
theorem C64_to_numpy (t : DenseT) (hk : ∀ x ∈ t.arr.elems, x.length = itemSize t.arr.dt) :
    (tensorToPy t).shape = t.info.shape ∧ (tensorToPy t).item = itemSize t.arr.dt ∧
    ∀ idx e, tensorElement t idx = some e → pyElement (tensorToPy t) idx = e := by
  refine ⟨rfl, exportFormat_size _, ?_⟩
  intro idx e h
  unfold tensorElement at h
  split at h
  · rename_i h0
    obtain ⟨n, hn⟩ : ∃ n : Nat, offset idx t.info.strides = n := ⟨(offset idx t.info.strides).toNat, by omega⟩
    rw [hn, Int.toNat_natCast] at h
    unfold pyElement tensorToPy
    simp only
    rw [offset_scale, hn, exportFormat_size]
    have : ((0 : Nat) : Int) + (itemSize t.arr.dt : Int) * (n : Int) = ((n * itemSize t.arr.dt : Nat) : Int) := by
      push_cast; grind
    rw [this, Int.toNat_natCast]
    exact flatten_get _ _ _ _ hk h
  · simp at h

/-- A transposed tensor of 16 bit numbers. -/
def exTensor : DenseT := ⟨⟨[3, 2], [1, 3], 6⟩, ⟨.int16, [[0, 0], [1, 0], [2, 0], [3, 0], [4, 0], [5, 0]]⟩⟩

example : (∀ x ∈ exTensor.arr.elems, x.length = itemSize exTensor.arr.dt) ∧
    tensorElement exTensor [1, 1] = some [4, 0] ∧ pyElement (tensorToPy exTensor) [1, 1] = [4, 0] := by decide

/-- C64, there and back: a tensor of eight byte elements with default strides that was exported to NumPy and wrapped
again has the same elements. -/
theorem C64_round_trip_partial (t : DenseT) (cpy : Bool) (hk : ∀ x ∈ t.arr.elems, x.length = 8)
    (h8 : itemSize t.arr.dt = 8) (hs : t.arr.dt = .string → cpy = true) (hz : t.arr.dt ≠ .size)
    (hstr : t.info.strides = rowMajor t.info.shape) (hfit : StridesFit t.info.shape)
    (hn : numElements t.info.shape < 2 ^ 64) (hsz : numElements t.info.shape ≤ t.arr.elems.length) :
    ∃ t', numpyToTensor (tensorToPy t) cpy = .ok t' ∧ t'.arr.dt = t.arr.dt ∧ t'.info.shape = t.info.shape ∧
      ∀ idx, InShape idx t.info.shape → tensorElement t' idx = tensorElement t idx := by
  have hk' : ∀ x ∈ t.arr.elems, x.length = itemSize t.arr.dt := by rw [h8]; exact hk
  have hflat : ∀ l : List Bytes, (∀ x ∈ l, x.length = 8) → l.flatten.length = l.length * 8 := by
    intro l hl
    induction l with
    | nil => rfl
    | cons x l ih =>
      rw [List.flatten_cons, List.length_append, ih (fun y hy => hl y (by simp [hy])), hl x (by simp), List.length_cons]
      omega
  have hlenRM : ∀ sh : List Nat, (rowMajor sh).length = sh.length := by
    intro sh
    induction sh with
    | nil => rfl
    | cons d ds ih => simp [rowMajor, ih]
  have hitem : (tensorToPy t).item = 8 := by rw [← h8]; exact exportFormat_size _
  have hcont : Contiguous (tensorToPy t) := by
    unfold Contiguous tensorToPy
    simp only [hstr]
  have hvalid : PyValid (tensorToPy t) := by
    refine ⟨?_, Nat.zero_le _, ?_⟩
    · rw [hcont, List.length_map, hlenRM]
    · intro idx hi
      obtain ⟨n, ho, hlt⟩ := offset_rowMajor idx t.info.shape hi
      have hm : (tensorToPy t).mem.length = t.arr.elems.length * 8 := hflat _ hk
      have hp : (tensorToPy t).ptr = 0 := rfl
      have hsh : (tensorToPy t).shape = t.info.shape := rfl
      rw [hcont, offset_scale, hitem, hm, hp, hsh, ho]
      omega
  obtain ⟨t', h1, h2, h3, h4⟩ := C64_from_numpy_partial (tensorToPy t) cpy t.arr.dt hvalid hcont
    (C58_export_partial t hz).2.2 hs hitem hfit hn
  refine ⟨t', h1, h2, h3, ?_⟩
  intro idx hi
  rw [h4 idx hi]
  obtain ⟨n, ho, hlt⟩ := offset_rowMajor idx t.info.shape hi
  have he : tensorElement t idx = some (t.arr.elems[n]'(by omega)) := by
    unfold tensorElement
    rw [hstr, ho, if_pos (by omega), Int.toNat_natCast, List.getElem?_eq_getElem]
  rw [he, (C64_to_numpy t hk').2.2 idx _ he]

/-- C64, to DLPack: the shared tensor has the type, shape and elements of the tensor; another version of DLPack and
strings are refused.  Dimensions must be representable as signed numbers. -/
theorem C64_dlpack (t : DenseT) (version supported : Nat) (hd : ∀ d ∈ t.info.shape, d < 2 ^ 63) :
    ((version ≠ supported ∨ t.arr.dt = .string) → asDlpack t version supported = .err .notSupported) ∧
    (version = supported → t.arr.dt ≠ .string →
      ∃ d, asDlpack t version supported = .ok d ∧ DlMeans d.dtype (kindOf t.arr.dt) (itemSize t.arr.dt) ∧
        d.ndim = t.info.shape.length ∧ d.shape = t.info.shape.map (fun n : Nat => (n : Int)) ∧
        ∀ idx, dlElement d idx = tensorElement t idx) := by
  constructor
  · intro h
    unfold asDlpack
    by_cases hv : version = supported
    · rw [if_neg (by simpa using hv)]
      rcases h with h | h
      · exact absurd hv h
      · rw [h]; rfl
    · rw [if_pos hv]
  · intro hv hs
    obtain ⟨ty, h1, h2⟩ := (C58_dlpack t.arr.dt).1 hs
    unfold asDlpack
    rw [if_neg (by simpa using hv), h1]
    refine ⟨_, rfl, h2, rfl, ?_, fun idx => rfl⟩
    apply List.map_congr_left
    intro n hn
    have := hd n hn
    have hm : n % W64 = n := Nat.mod_eq_of_lt (by simp only [W64]; omega)
    unfold asSsize
    simp only [hm, this, if_true]

example : ∀ d ∈ exTensor.info.shape, d < 2 ^ 63 := by decide

end Mlio
