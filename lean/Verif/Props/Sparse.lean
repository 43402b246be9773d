import Verif.Proofs.Sparse
import Verif.Props.Exchange
import Verif.Props.Protobuf

/-!
# C78: sparse tensors in SciPy and TensorFlow
-/

namespace Mlio

open Spec

variable {V : Type}

/-! ## SciPy -/

/-- C78: the SciPy matrix of a valid sparse tensor with two dimensions has the shape and the entries of the tensor, in
the same order.

Partial: two dimensions, see `C78_vector_violated`. -/
theorem C78_scipy_partial (t : CooT V) (h : CooOk t) (r c : Nat) (hs : t.shape = [r, c]) :
    ∃ m, toCooMatrix t = .ok m ∧ m.rows = r ∧ m.cols = c ∧
      matrixEntries m = (tensorEntries t).map fun e => (e.1.map fun (i : Nat) => (i : Int), e.2) := by
  obtain ⟨a, b, ht, ha, hb, har, hbc, hr, hc⟩ := h.two hs
  have hm := toCooMatrix_two t.data r c a b ha hb har hbc hr hc
  refine ⟨_, (congrArg toCooMatrix ht).trans hm, rfl, rfl, ?_⟩
  rw [ht, tensorEntries_two _ _ _ _ ha hb]
  simp only [matrixEntries, List.map_map, List.zip_map_left, List.zip_map_right]
  rfl

/-- A tensor with two entries at the same position and one that is zero. -/
def exCoo : CooT Int := ⟨[2, 3], [5, 7, 1, 2], [[1, 0, 1, 1], [2, 0, 0, 2]]⟩

theorem exCoo_ok : CooOk exCoo :=
  ⟨rfl, by decide, by simp [tensorEntries, exCoo, InShape, List.zipIdx], by decide⟩

example : toCooMatrix exCoo = .ok ⟨2, 3, [1, 0, 1, 1], [2, 0, 0, 2], [5, 7, 1, 2]⟩ := by decide +kernel

/-- C78: a tensor with more than two dimensions is refused. -/
theorem C78_rank (t : CooT V) (h : 2 < t.shape.length) : toCooMatrix t = .err .invalidArgument := by
  unfold toCooMatrix
  rw [if_pos h]

example : toCooMatrix (⟨[2, 3, 4], [5], [[1], [2], [3]]⟩ : CooT Nat) = .err .invalidArgument := C78_rank _ (by decide)

/-- C78 is violated by every tensor with one dimension, for which the conversion is meant too: there is no second
coordinate vector, and asking for it ends the process. -/
theorem C78_vector_violated (t : CooT V) (h : CooOk t) (n : Nat) (hs : t.shape = [n]) :
    toCooMatrix t = .ub "std::terminate" := by
  obtain ⟨s, data, coords⟩ := t
  simp only at hs
  subst hs
  have hr := h.rank
  match coords, hr with
  | [a], _ => rfl

example : CooOk (⟨[3], [5], [[1]]⟩ : CooT Nat) :=
  ⟨rfl, by decide, by simp [tensorEntries, InShape, List.zipIdx], by decide⟩

/-- C78: what comes out of the conversion never has an entry outside of the matrix. -/
theorem C78_scipy_in_range (t : CooT V) (m : CooMatrix V) (h : toCooMatrix t = .ok m) :
    ∀ e ∈ matrixEntries m, ∃ i j : Nat, e.1 = [(i : Int), (j : Int)] ∧ i < m.rows ∧ j < m.cols := by
  have key : ∀ (r c : Nat) (x y : List Int), scipyCoo r c t.data x y = .ok m →
      ∀ e ∈ matrixEntries m, ∃ i j : Nat, e.1 = [(i : Int), (j : Int)] ∧ i < m.rows ∧ j < m.cols := by
    intro r c x y hk e he
    unfold scipyCoo at hk
    simp only at hk
    split at hk
    · cases hk
    · split at hk
      · cases hk
      · split at hk
        · cases hk
        · next h1 h2 h3 =>
          cases hk
          simp only [matrixEntries, List.mem_map] at he
          obtain ⟨⟨p, q, v⟩, hz, rfl⟩ := he
          have hp := (List.of_mem_zip hz).1
          have hq := (List.of_mem_zip (List.of_mem_zip hz).2).1
          have h2' : ¬ (p < 0 ∨ (r : Int) ≤ p) := fun hc => h2 ⟨p, hp, hc⟩
          have h3' : ¬ (q < 0 ∨ (c : Int) ≤ q) := fun hc => h3 ⟨q, hq, hc⟩
          refine ⟨p.toNat, q.toNat, ?_, ?_, ?_⟩
          · simp only [List.cons.injEq, and_true]
            omega
          · simp only; omega
          · simp only; omega
  unfold toCooMatrix at h
  simp only at h
  split at h
  · cases h
  · split at h
    · cases h
    · cases h
    · split at h
      · cases h
      · cases h
      · split at h
        · exact key _ _ _ _ h
        · cases h

/-- C78 is violated by some tensors with entries outside of the tensor, which nothing prevents one from making: instead
of being refused, the entry appears at another position. -/
theorem C78_wrapped_index_violated :
    ∃ t : CooT Int, (∃ i, cooTensor t.shape t.data.length (t.coords.map List.length) = .ok i) ∧
      (∃ e ∈ tensorEntries t, ¬ InShape e.1 t.shape) ∧
      toCooMatrix t = .ok ⟨1, 1, [0], [0], [5]⟩ := by
  refine ⟨⟨[1, 1], [5], [[2 ^ 32], [0]]⟩, ⟨_, rfl⟩, ?_, by decide +kernel⟩
  exact ⟨([2 ^ 32, 0], 5), by simp [tensorEntries, List.zipIdx], by simp [InShape]⟩

/-- The matrix of a sparse feature. -/
theorem reader_matrix (zero : V) (a : Attr) (dirty : Prop) (size n : Nat) (rows : List (PTensor V)) (hd : a.shape.tail = [n])
    (hsp : a.sparse = true) (hlen : a.shape.length = 2) (shape : List Nat) (data : List V) (coords : List (List Nat))
    (hf : FeatureHolds zero dirty a size rows (.coo shape data coords))
    (hrows : rows.length ≤ size) (hsz : size < 2 ^ 63) (hn : n < 2 ^ 63)
    (hk : ∀ t ∈ rows, t.keys.length = t.values.length ∧ ∀ k ∈ t.keys, k < n) :
    ∃ m, toCooMatrix ⟨shape, data, coords⟩ = .ok m ∧ m.rows = size ∧ m.cols = n ∧
      matrixEntries m = rows.zipIdx.flatMap fun x =>
        (x.1.keys.zip x.1.values).map fun kv => ([(x.2 : Int), (kv.1 : Int)], kv.2) := by
  simp only [FeatureHolds, hsp, if_true, hd, hlen, PTensorOut.coo.injEq] at hf
  obtain ⟨rfl, rfl, rfl⟩ := hf
  have hes : cooEntries [n] rows = rows.zipIdx.flatMap fun x =>
        (x.1.keys.zip x.1.values).map fun kv => ([x.2, kv.1], kv.2) := by
    unfold cooEntries
    simp [unravel, numElements]
  generalize he : cooEntries [n] rows = es at hes ⊢
  have hin : ∀ e ∈ es, ∃ i k, e.1 = [i, k] ∧ i < size ∧ k < n := by
    intro e hm
    rw [hes, List.mem_flatMap] at hm
    obtain ⟨⟨t, i⟩, hx, hm⟩ := hm
    obtain ⟨kv, hkv, rfl⟩ := List.mem_map.mp hm
    have hi := List.mem_zipIdx hx
    refine ⟨i, kv.1, rfl, by omega, ?_⟩
    have ht : t ∈ rows := by
      have := hi.2.2
      rw [this]
      exact List.getElem_mem _
    exact (hk t ht).2 _ (List.of_mem_zip hkv).1
  have hcols : columns 2 es = [es.map (fun e => e.1.getD 0 0), es.map (fun e => e.1.getD 1 0)] := rfl
  rw [hcols]
  refine ⟨_, toCooMatrix_two _ size n _ _ (by simp) (by simp) ?_ ?_ hsz hn, rfl, rfl, ?_⟩
  · intro x hx
    obtain ⟨e, hm, rfl⟩ := List.mem_map.mp hx
    obtain ⟨i, k, h1, h2, h3⟩ := hin e hm
    simpa [h1] using h2
  · intro x hx
    obtain ⟨e, hm, rfl⟩ := List.mem_map.mp hx
    obtain ⟨i, k, h1, h2, h3⟩ := hin e hm
    simpa [h1] using h3
  · have h1 : matrixEntries (⟨size, n, (es.map (fun e => e.1.getD 0 0)).map (fun (x : Nat) => (x : Int)),
        (es.map (fun e => e.1.getD 1 0)).map (fun (x : Nat) => (x : Int)), es.map Prod.snd⟩ : CooMatrix V) =
        es.map fun e => ([((e.1.getD 0 0 : Nat) : Int), ((e.1.getD 1 0 : Nat) : Int)], e.2) := by
      unfold matrixEntries
      clear hin hes he hcols
      induction es with
      | nil => rfl
      | cons e es ih => simpa using ih
    rw [h1, hes, List.map_flatMap]
    congr 1
    funext x
    rw [List.map_map]
    rfl

/-- C78: a sparse feature of a RecordIO-protobuf example with vectors of size `n` becomes a matrix with a row for each
instance.  The entries of a row are the pairs of keys and values of the instance.

Partial: as in `C40_batch_partial`, less than `2 ^ 63` rows, and vectors only (`C78_rank`). -/
theorem C78_reader_partial (zero : V) (h : BadHandling) (s : Schema) (hs : SchemaOk s) (size : Nat)
    (rs : List (Option (PRecord V))) (hb : BatchOk s size rs)
    (hbad : ∀ r ∈ rs, IsBad s r → (h = .pad ∨ h = .padWarn) ∧ NoSparse s r)
    (o : Res (Option (ProtoExample V))) (ho : ProtoBatch zero h s size rs o) (hsz : size < 2 ^ 63)
    (i : Nat) (a : Attr) (ha : s.attrs[i]? = some a) (hsp : a.sparse = true) (n : Nat) (hd : a.shape.tail = [n]) :
    ∃ ex shape data coords m, o = .ok (some ex) ∧ ex.features[i]? = some (.coo shape data coords) ∧
      toCooMatrix ⟨shape, data, coords⟩ = .ok m ∧ m.rows = size ∧ m.cols = n ∧
      matrixEntries m = (rowsOf a (conforming s rs)).zipIdx.flatMap fun x =>
        (x.1.keys.zip x.1.values).map fun kv => ([(x.2 : Int), (kv.1 : Int)], kv.2) := by
  obtain ⟨ts, h1, _, h3⟩ := C40_batch_partial zero h s hs size rs hb hbad o ho
  obtain ⟨f, hf, hold⟩ := h3 i a ha
  have hmem : a ∈ s.attrs := List.mem_of_getElem? ha
  have hok := hs.attrs a hmem
  have hcoo : ∃ shape data coords, f = .coo shape data coords := by
    have := hold
    simp only [FeatureHolds, hsp, if_true] at this
    exact ⟨_, _, _, this⟩
  obtain ⟨shape, data, coords, rfl⟩ := hcoo
  have hlen : a.shape.length = 2 := by
    obtain ⟨b, hb'⟩ := hok.shape
    rw [hb', hd]; rfl
  have hn : n < 2 ^ 63 := by
    have := hok.size
    rw [hd] at this
    simpa [numElements] using this
  have hconf : ∀ g ∈ conforming s rs, NoClash g ∧ Conforms s g := by
    intro g hg
    unfold conforming at hg
    simp only [List.mem_filter, List.mem_filterMap, id, decide_eq_true_eq] at hg
    obtain ⟨⟨r, hr, rfl⟩, hc⟩ := hg
    exact ⟨hb.names _ hr g rfl, hc⟩
  have hcl : (conforming s rs).length ≤ rs.length := by
    unfold conforming
    exact Nat.le_trans (List.length_filter_le _ _) (List.length_filterMap_le _ _)
  have hrl : (rowsOf a (conforming s rs)).length ≤ (conforming s rs).length := List.length_filterMap_le _ _
  obtain ⟨m, hm⟩ := reader_matrix zero a _ size n _ hd hsp hlen shape data coords hold
    (by have := hb.fits; omega) hsz hn (by
      intro t ht
      obtain ⟨g, hg, hgt⟩ := List.mem_filterMap.mp ht
      obtain ⟨t', ht', hfit⟩ := conforms_tensorOf (hconf g hg).1 (hconf g hg).2 a hmem
      rw [hgt] at ht'
      cases ht'
      unfold TensorFits at hfit
      simp only [hsp, if_true, hd] at hfit
      exact ⟨hfit.2.2.1, fun k hk => by simpa [numElements] using hfit.2.2.2 k hk⟩)
  exact ⟨_, shape, data, coords, m, h1, hf, hm⟩

/-- A schema with a sparse attribute of vectors of size 10. -/
def exVectors : Schema := ⟨[⟨[120], .float32, [4, 10], [10, 1], true⟩], [([120], 0)]⟩

example : SchemaOk exVectors ∧
    protoDecode 0 .error exVectors 4
      [some ⟨[], [([120], .tensor .float32 ⟨[7, 8], [0, 9], [10]⟩)]⟩, some ⟨[], [([120], .tensor .float32 ⟨[9], [5], [10]⟩)]⟩] =
      .ok (some ⟨[.coo [4, 10] [7, 8, 9] [[0, 0, 1], [0, 9, 5]]], 2⟩) := by
  refine ⟨⟨rfl, ?_⟩, rfl⟩
  intro a ha
  simp only [exVectors, List.mem_cons, List.not_mem_nil, or_false] at ha
  subst ha
  exact ⟨⟨4, rfl⟩, rfl, by decide, by decide, by decide, by decide⟩

example : toCooMatrix (⟨[4, 10], [7, 8, 9], columns 2 (cooEntries [10] [⟨[7, 8], [0, 9], [10]⟩, ⟨[9], [5], [10]⟩])⟩ : CooT Nat) =
    .ok ⟨4, 10, [0, 0, 1], [0, 9, 5], [7, 8, 9]⟩ := by decide +kernel

/-- C78: a SciPy matrix whose data lies in one piece becomes a tensor with its shape and entries. -/
theorem C78_from_scipy_partial (r c : Nat) (row col : List Nat) (data : PyBuf) (dt : DataType) (n : Nat)
    (hv : PyValid data) (hc : Contiguous data) (hd : getDataType data.fmt data.item = some dt) (hs : dt ≠ .string)
    (hn : data.shape = [n]) (hr : row.length = n) (hcl : col.length = n) (hfit : c < 2 ^ 63)
    (hrow : ∀ i ∈ row, i < r) (hcol : ∀ j ∈ col, j < c) (hfit' : r < 2 ^ 63) :
    ∃ t, fromCooMatrix r c (row.map fun (x : Nat) => (x : Int)) (col.map fun (x : Nat) => (x : Int)) data = .ok t ∧ t.shape = [r, c] ∧
      tensorEntries t = (List.range n).map fun k => ([row.getD k 0, col.getD k 0], pyElement data [k]) := by
  have hroom := contiguous_room data hv hc
  have hsize : data.size = n := by simp [PyBuf.size, hn]
  have hm : makeDeviceArray data false = .ok ⟨dt, consecutive data.item data.size (data.mem.drop data.ptr)⟩ := by
    unfold makeDeviceArray
    rw [hd]
    simp only
    rw [if_neg (by rintro ⟨h1, _⟩; exact hs h1), if_neg (by omega)]
  have hcoo : ∃ i, cooTensor [r, c] n [n, n] = .ok i := by
    refine ⟨⟨[r, c], [(c : Int), 1], n⟩, ?_⟩
    have hs : tensorStrides [r, c] [] = .ok [(c : Int), 1] := by
      have h1 : asSsize c = c := asSsize_below hfit
      simp only [tensorStrides, defaultStrides, if_true, ssizeRes, Int.one_mul, h1]
      rw [if_pos (show -(2 : Int) ^ 63 ≤ (c : Int) ∧ (c : Int) < 2 ^ 63 by omega)]
      rfl
    unfold cooTensor
    rw [hs]
    simp
  obtain ⟨i, hi⟩ := hcoo
  have hsz : ∀ (l : List Nat) (d : Nat), (∀ x ∈ l, x < d) → d < 2 ^ 63 → (l.map fun (x : Nat) => (x : Int)).map asSize = l := by
    intro l d hl hd
    rw [List.map_map]
    conv => rhs; rw [← List.map_id l]
    apply List.map_congr_left
    intro x hx
    have := hl x hx
    simp only [Function.comp_apply, asSize, id]
    omega
  refine ⟨⟨[r, c], consecutive data.item n (data.mem.drop data.ptr), [row, col]⟩, ?_, rfl, ?_⟩
  · unfold fromCooMatrix
    rw [hm]
    simp only [List.length_map, consecutive_length, hsize, hr, hcl, hi, hsz row r hrow hfit', hsz col c hcol hfit]
  · rw [tensorEntries_two _ _ _ _ (by rw [consecutive_length, hr]) (by rw [consecutive_length, hcl])]
    apply List.ext_getElem
    · simp [consecutive_length, hr, hcl]
    · intro k h1 h2
      have hk : k < n := by simpa using h2
      have hel : (consecutive data.item n (data.mem.drop data.ptr))[k]? = some (pyElement data [k]) := by
        rw [consecutive_get _ _ _ _ hk, List.drop_drop]
        unfold pyElement
        rw [hc, hn]
        simp only [rowMajor, numElements, List.map_cons, List.map_nil, offset]
        congr 3
        have : ((data.ptr : Int) + ((k : Int) * ((data.item : Int) * (1 : Nat)) + 0)) = ((data.ptr + k * data.item : Nat) : Int) := by
          push_cast; grind
        rw [this, Int.toNat_natCast]
      have hel' := List.getElem?_eq_some_iff.mp hel
      obtain ⟨hlt, hel'⟩ := hel'
      simp [List.getD_eq_getElem?_getD, List.getElem?_eq_getElem (show k < row.length by omega),
        List.getElem?_eq_getElem (show k < col.length by omega), hel']

/-- The data of a matrix with two entries, bytes. -/
def exData : PyBuf := ⟨['B'], 1, [5, 6], 0, [2], [1]⟩

example : PyValid exData ∧ Contiguous exData ∧ fromCooMatrix 2 3 [1, 0] [2, 0] exData = .ok ⟨[2, 3], [[5], [6]], [[1, 0], [2, 0]]⟩ := by
  refine ⟨⟨rfl, by decide, ?_⟩, rfl, by decide +kernel⟩
  intro idx hi
  match idx, hi with
  | [i], h =>
    simp only [exData, InShape] at h
    simp [exData, offset]
    omega

/-- C78 is violated by matrices whose data is a view of every second element of another array: the elements between
them are taken. -/
theorem C78_stepped_data_violated :
    ∃ data : PyBuf, PyValid data ∧ pyElement data [1] = [7] ∧
      fromCooMatrix 2 3 [1, 0] [2, 0] data = .ok ⟨[2, 3], [[5], [6]], [[1, 0], [2, 0]]⟩ := by
  refine ⟨⟨['B'], 1, [5, 6, 7], 0, [2], [2]⟩, ⟨rfl, by decide, ?_⟩, by decide, by decide +kernel⟩
  intro idx hi
  match idx, hi with
  | [i], h =>
    simp only [InShape] at h
    simp [offset]
    omega

/-! ## TensorFlow -/

/-- What the stored entries of the CSR matrix are. -/
theorem csr_entries (add : V → V → V) (sort : List (Int × V) → List (Int × V)) (hsort : SortsColumns sort) (t : CooT V)
    (h : CooOk t) (r c : Nat) (hs : t.shape = [r, c]) :
    ∃ m, toCooMatrix t = .ok m ∧ m.rows = r ∧ m.cols = c ∧
      ((csrEntries (tocsr add sort m)).map Prod.fst).Pairwise Before ∧
      (∀ e ∈ csrEntries (tocsr add sort m), ∃ j : Nat, e.1.2 = j ∧ SumsTo add (valuesAt t [e.1.1, j]) e.2) ∧
      (∀ i j : Nat, valuesAt t [i, j] ≠ [] → ∃ x, ((i, (j : Int)), x) ∈ csrEntries (tocsr add sort m)) := by
  obtain ⟨a, b, ht, ha, hb, har, hbc, hr, hc⟩ := h.two hs
  have hm := (congrArg toCooMatrix ht).trans (toCooMatrix_two t.data r c a b ha hb har hbc hr hc)
  generalize hmm : (⟨r, c, a.map (fun (x : Nat) => (x : Int)), b.map (fun (x : Nat) => (x : Int)), t.data⟩ : CooMatrix V) = m at hm
  have hcv : ∀ i j : Nat, colVals (m.rowEntries i) j = valuesAt t [i, j] := by
    intro i j
    rw [← hmm, colVals_rowEntries _ _ _ _ _ _ _ ha hb]
    exact congrArg (valuesAt · _) ht.symm
  have hmr : m.rows = r := by rw [← hmm]
  have hmc : m.cols = c := by rw [← hmm]
  have hrow : ∀ i, _ := fun i => sumRuns_spec add (sort (m.rowEntries i)) (hsort _).2
  have hnat : ∀ i e, e ∈ m.rowEntries i → ∃ j : Nat, e.1 = j := by
    intro i e he
    rw [← hmm] at he
    exact rowEntries_col _ _ _ _ _ _ _ he
  refine ⟨m, hm, hmr, hmc, ?_, ?_, ?_⟩
  · have : ∀ n, ((csrEntries ((List.range n).map fun i => (i, sumRuns add (sort (m.rowEntries i))))).map Prod.fst).Pairwise Before ∧
        ∀ e ∈ csrEntries ((List.range n).map fun i => (i, sumRuns add (sort (m.rowEntries i)))), e.1.1 < n := by
      intro n
      induction n with
      | zero => simp [csrEntries]
      | succ n ih =>
        have hsplit : csrEntries ((List.range (n + 1)).map fun i => (i, sumRuns add (sort (m.rowEntries i)))) =
            csrEntries ((List.range n).map fun i => (i, sumRuns add (sort (m.rowEntries i)))) ++
              (sumRuns add (sort (m.rowEntries n))).map fun e => ((n, e.1), e.2) := by
          simp [csrEntries, List.range_succ]
        rw [hsplit]
        constructor
        · rw [List.map_append, List.pairwise_append]
          refine ⟨ih.1, ?_, ?_⟩
          · rw [List.map_map, List.pairwise_map]
            exact (hrow n).1.imp (fun h => .inr ⟨rfl, h⟩)
          · intro x hx y hy
            obtain ⟨e, he, rfl⟩ := List.mem_map.mp hx
            rw [List.map_map] at hy
            obtain ⟨f, _, rfl⟩ := List.mem_map.mp hy
            exact .inl (ih.2 e he)
        · intro e he
          rcases List.mem_append.mp he with he | he
          · have := ih.2 e he
            omega
          · obtain ⟨f, _, rfl⟩ := List.mem_map.mp he
            simp
    exact (this m.rows).1
  · intro e he
    simp only [csrEntries, tocsr, List.mem_flatMap, List.mem_map] at he
    obtain ⟨_, ⟨i, hi, rfl⟩, f, hf, rfl⟩ := he
    obtain ⟨w, ws, h1, h2⟩ := (hrow i).2.1 f hf
    have hp := colVals_perm (hsort (m.rowEntries i)).1 f.1
    rw [h1] at hp
    obtain ⟨x, hx, hxf⟩ := colVals_ne_nil (l := m.rowEntries i) (j := f.1) (fun hn => by
      rw [hn] at hp
      exact List.cons_ne_nil _ _ hp.eq_nil)
    obtain ⟨j, hj⟩ := hnat i x hx
    refine ⟨j, by rw [← hxf]; exact hj, w, ws, ?_, h2⟩
    rw [← hcv, ← hj, hxf]
    exact hp
  · intro i j hij
    rw [← hcv] at hij
    obtain ⟨e, he, hej⟩ := colVals_ne_nil hij
    obtain ⟨x, hx⟩ := (hrow i).2.2 e ((hsort (m.rowEntries i)).1.mem_iff.mpr he)
    have hir : i < r := by
      rw [← hmm] at he
      unfold CooMatrix.rowEntries at he
      simp only [List.mem_map, List.mem_filter, decide_eq_true_eq] at he
      obtain ⟨⟨p, q⟩, ⟨hz, hp⟩, _⟩ := he
      obtain ⟨y, hy, hyp⟩ := List.mem_map.mp (List.of_mem_zip hz).1
      have := har y hy
      simp only at hp
      omega
    refine ⟨x, ?_⟩
    simp only [csrEntries, tocsr, List.mem_flatMap, List.mem_map]
    exact ⟨_, ⟨i, by rw [hmr]; exact List.mem_range.mpr hir, rfl⟩, (e.1, x), hx, by rw [hej]⟩

theorem tf_entries_zip (es : List ((Nat × Int) × V)) (s : Nat × Nat) :
    tfEntries ⟨es.map Prod.fst, es.map Prod.snd, s⟩ = es.map fun e => ([(e.1.1 : Int), e.1.2], e.2) := by
  unfold tfEntries
  induction es with
  | nil => rfl
  | cons e es ih => simpa using ih

/-- C78: if no position has a value that is zero, the TensorFlow tensor of a valid sparse tensor with two dimensions has
its shape, and an entry for exactly the positions at which the tensor has entries.  Its value is the sum of the values
there.  The positions are in order.

Partial: two dimensions, see `C78_vector_violated`, and no zeros, see `C78_zero_violated`. -/
theorem C78_tf_partial (add : V → V → V) (isZero : V → Bool) (sort : List (Int × V) → List (Int × V))
    (hsort : SortsColumns sort) (t : CooT V) (h : CooOk t) (r c : Nat) (hs : t.shape = [r, c])
    (hz : ∀ idx x, SumsTo add (valuesAt t idx) x → isZero x = false) :
    ∃ T, toTf add isZero sort t = .ok T ∧ T.shape = (r, c) ∧
      (∀ e ∈ tfEntries T, ∃ i j : Nat, e.1 = [(i : Int), (j : Int)] ∧ SumsTo add (valuesAt t [i, j]) e.2) ∧
      (∀ i j : Nat, valuesAt t [i, j] ≠ [] → ∃ x, ([(i : Int), (j : Int)], x) ∈ tfEntries T) ∧
      T.indices.Pairwise Before := by
  obtain ⟨m, hm, hr, hc, h1, h2, h3⟩ := csr_entries add sort hsort t h r c hs
  have hf : (csrEntries (tocsr add sort m)).filter (fun e => ! isZero e.2) = csrEntries (tocsr add sort m) := by
    rw [List.filter_eq_self]
    intro e he
    obtain ⟨j, _, hj⟩ := h2 e he
    simpa using hz _ _ hj
  refine ⟨⟨(csrEntries (tocsr add sort m)).map Prod.fst, (csrEntries (tocsr add sort m)).map Prod.snd, (r, c)⟩, ?_, rfl, ?_, ?_, h1⟩
  · unfold toTf
    rw [hm]
    simp only [hf, tfSparse, List.length_map, if_true, hr, hc]
  · intro e he
    rw [tf_entries_zip] at he
    obtain ⟨f, hfm, rfl⟩ := List.mem_map.mp he
    obtain ⟨j, hj, hsum⟩ := h2 f hfm
    exact ⟨f.1.1, j, by simp only [hj], hsum⟩
  · intro i j hij
    obtain ⟨x, hx⟩ := h3 i j hij
    refine ⟨x, ?_⟩
    rw [tf_entries_zip]
    exact List.mem_map.mpr ⟨_, hx, rfl⟩

/-- C78 is violated by all tensors that have a zero at some position – a zero among the values of a message, or values
that add up to zero: the conversion fails. -/
theorem C78_zero_violated (add : V → V → V) (isZero : V → Bool) (sort : List (Int × V) → List (Int × V))
    (hsort : SortsColumns sort) (t : CooT V) (h : CooOk t) (r c : Nat) (hs : t.shape = [r, c]) (i j : Nat)
    (hij : valuesAt t [i, j] ≠ []) (hz : ∀ x, SumsTo add (valuesAt t [i, j]) x → isZero x = true) :
    toTf add isZero sort t = .err .invalidArgument := by
  obtain ⟨m, hm, hr, hc, h1, h2, h3⟩ := csr_entries add sort hsort t h r c hs
  obtain ⟨x, hx⟩ := h3 i j hij
  obtain ⟨j', hj', hsum⟩ := h2 _ hx
  simp only at hj' hsum
  have hj2 : j' = j := by omega
  subst hj2
  have hzx := hz x hsum
  unfold toTf
  rw [hm]
  simp only [tfSparse]
  rw [if_neg]
  simp only [List.length_map]
  intro heq
  have := List.length_filter_eq_length_iff.mp heq _ hx
  simp [hzx] at this

/-- Insertion sort by column. -/
def insertCol (e : Int × V) : List (Int × V) → List (Int × V)
  | [] => [e]
  | f :: l => if e.1 ≤ f.1 then e :: f :: l else f :: insertCol e l

def sortCols (l : List (Int × V)) : List (Int × V) := l.foldr insertCol []

theorem insertCol_perm (e : Int × V) (l : List (Int × V)) : (insertCol e l).Perm (e :: l) := by
  induction l with
  | nil => exact .refl _
  | cons f l ih =>
    unfold insertCol
    split
    · exact .refl _
    · exact (ih.cons f).trans (.swap e f l)

theorem insertCol_sorted (e : Int × V) (l : List (Int × V)) (h : l.Pairwise fun a b => a.1 ≤ b.1) :
    (insertCol e l).Pairwise fun a b => a.1 ≤ b.1 := by
  induction l with
  | nil => simp [insertCol]
  | cons f l ih =>
    have h' := List.pairwise_cons.mp h
    unfold insertCol
    split
    · next he =>
      refine List.pairwise_cons.mpr ⟨?_, h⟩
      intro x hx
      rcases List.mem_cons.mp hx with rfl | hx
      · exact he
      · have := h'.1 x hx; omega
    · next he =>
      refine List.pairwise_cons.mpr ⟨?_, ih h'.2⟩
      intro x hx
      rcases List.mem_cons.mp ((insertCol_perm e l).mem_iff.mp hx) with rfl | hx
      · omega
      · exact h'.1 x hx

/-- There are correct sortings. -/
theorem sortCols_sorts : SortsColumns (sortCols (V := V)) := by
  intro l
  unfold sortCols
  induction l with
  | nil => simp
  | cons e l ih =>
    exact ⟨(insertCol_perm e _).trans (ih.1.cons e), insertCol_sorted e _ ih.2⟩

example : toTf (· + ·) (· == 0) sortCols exCoo = .ok ⟨[(0, 0), (1, 0), (1, 2)], [7, 1, 7], (2, 3)⟩ := by decide +kernel

example : ∀ idx x, SumsTo (· + ·) (valuesAt exCoo idx) x → (x == (0 : Int)) = false := by
  intro idx x ⟨w, ws, hp, hx⟩
  have hpos : ∀ y ∈ w :: ws, 0 < y := by
    intro y hy
    have := hp.mem_iff.mp hy
    simp only [valuesAt, List.mem_map, List.mem_filter, tensorEntries, exCoo, List.zipIdx, List.map_cons, List.map_nil, List.mem_cons,
      List.not_mem_nil, or_false] at this
    obtain ⟨e, ⟨h | h | h | h, _⟩, rfl⟩ := this <;> rw [h] <;> decide
  have hfold : ∀ (l : List Int) (z : Int), 0 < z → (∀ y ∈ l, 0 < y) → 0 < l.foldl (· + ·) z := by
    intro l
    induction l with
    | nil => intro z hz _; exact hz
    | cons y l ih =>
      intro z hz hl
      refine ih (z + y) ?_ (fun u hu => hl u (List.mem_cons_of_mem _ hu))
      have := hl y (List.mem_cons.mpr (.inl rfl))
      omega
  have := hfold ws w (hpos w (by simp)) (fun y hy => hpos y (by simp [hy]))
  rw [← hx] at this
  simp
  omega

/-- A tensor with an explicit zero, as it is read from a message with keys 0, 2 and values 5, 0. -/
def exZero : CooT Int := ⟨[1, 3], [5, 0], [[0, 0], [0, 2]]⟩

example : CooOk exZero ∧ toTf (· + ·) (· == 0) sortCols exZero = .err .invalidArgument := by
  refine ⟨⟨rfl, by decide, by simp [tensorEntries, exZero, InShape, List.zipIdx], by decide⟩, by decide +kernel⟩

end Mlio
