import Verif.Proofs.ProtoParallel

/-!
# C39, C40, C41, C63: RecordIO-protobuf instances and batches
-/

namespace Mlio
open Spec

variable {V : Type}

/-! ## C39 -/

/-- C39: values and keys appended to the builder of an attribute are accepted exactly if all keys are below the number
of elements of a row.  The coordinates of an accepted key lie inside the shape, and the key is their position in
row-major order; they are added behind the ones already there, with the current row in front, in the order of the
keys.  There is no undefined behaviour.

Partial: no dimension behind the first one of a row may be zero (see `C39_zero_dimension_violated`). -/
theorem C39_keys_partial (a : Attr) (ha : AttrOk a a.shape.tail) (hsp : a.sparse = true) (b : CooBuilder V)
    (es : List (List Nat × V)) (hb : b.shape = a.shape ∧ b.strides = a.strides ∧ b.coords = columns a.shape.length es)
    (kvs : List (Nat × V)) :
    ((∀ kv ∈ kvs, kv.1 < numElements a.shape.tail) →
      ∃ (idx : Nat → List Nat) (b' : CooBuilder V),
        b.append (kvs.map Prod.snd) (kvs.map Prod.fst) = .ok (true, b') ∧
        b'.row = b.row + 1 ∧ b'.data = b.data ++ kvs.map Prod.snd ∧
        b'.coords = columns a.shape.length (es ++ kvs.map fun kv => (b.row :: idx kv.1, kv.2)) ∧
        ∀ k, k < numElements a.shape.tail →
          InShape (idx k) a.shape.tail ∧ offset (idx k) (rowMajor a.shape.tail) = k) ∧
    ((¬ ∀ kv ∈ kvs, kv.1 < numElements a.shape.tail) →
      ∃ b', b.append (kvs.map Prod.snd) (kvs.map Prod.fst) = .ok (false, b')) := by
  obtain ⟨bs, hbs⟩ := ha.shape
  have hfit := ha.fit
  rw [hbs] at hfit
  have hlen : a.shape.length = a.shape.tail.length + 1 := by
    have := congrArg List.length hbs
    simpa using this
  have key := appendKeys_spec a.shape.tail bs ha.rank hfit (ha.pos hsp) kvs
    ⟨b.shape, b.strides, b.batch, b.row, b.data ++ kvs.map Prod.snd, b.coords⟩ es (hb.1.trans hbs)
    (by simp only; rw [hb.2.1, ha.strides, ← hbs]) (by simp only; rw [hb.2.2, hlen])
  refine ⟨fun h => ⟨unravel a.shape.tail, _, key.1 h, rfl, rfl, by rw [hlen]; rfl,
    fun k hk => unravel_spec _ k hk⟩, fun h => key.2 h⟩

/-- An attribute with rows of shape `[2, 3]`. -/
def exSparse : Attr := ⟨[120], .float32, [4, 2, 3], [6, 3, 1], true⟩

theorem exSparse_ok : AttrOk exSparse exSparse.shape.tail :=
  ⟨⟨4, rfl⟩, rfl, by decide, by decide, by decide, fun _ => by decide⟩

example : AttrOk exSparse exSparse.shape.tail ∧ exSparse.sparse = true ∧
    (CooBuilder.new exSparse 4).append [7, 8] [5, 1] =
      .ok (true, ⟨[4, 2, 3], [6, 3, 1], 4, 1, [7, 8], [[0, 0], [1, 0], [2, 1]]⟩) ∧
    (∃ b', (CooBuilder.new exSparse 4).append [7, 8] [5, 6] = .ok (false, b')) :=
  ⟨exSparse_ok, rfl, by decide, _, rfl⟩

/-- With a dimension of zero the code divides by zero instead of rejecting the key. -/
theorem C39_zero_dimension_violated :
    (CooBuilder.new ⟨[120], .float32, [4, 2, 0], [0, 0, 1], true⟩ 4).append [7] [0] = .ub "division by zero" ∧
    makeAttr [120] .float32 [4, 2, 0] [] true = .ok ⟨[120], .float32, [4, 2, 0], [0, 0, 1], true⟩ := by
  constructor
  · decide
  · rfl

/-! ## C41 -/

/-- C41: an instance is accepted exactly if it provides a value for each attribute and has no other features, each
value with the data type, sparseness and shape of the attribute, as many values as elements (or as many values as
keys), and valid keys.  If it is not accepted, it is a bad instance: an error is raised or it is reported as bad,
depending on `errorBad`.

Partial: no two features may end up with the same name (see `C41_name_clash_violated`), and no dimension of a sparse
attribute may be zero (`AttrOk`). -/
theorem C41_accepted_iff_partial (errorBad : Bool) (s : Schema) (hs : SchemaOk s) (r : PRecord V) (hc : NoClash r) :
    ((recordRun errorBad s (some r)).2 = .ok true ↔ Conforms s r) ∧
    (¬ Conforms s r → (recordRun errorBad s (some r)).2 = if errorBad then .err .invalidInstance else .ok false) := by
  obtain ⟨h1, h2⟩ := recordRun_out errorBad s hs r hc
  refine ⟨⟨fun h => ?_, h1⟩, h2⟩
  apply Classical.byContradiction
  intro hn
  rw [h2 hn] at h
  exact badInstance_ne errorBad h

/-- A schema with the sparse attribute above and a dense label. -/
def exSchema : Schema :=
  ⟨[⟨[108, 97, 98, 101, 108, 95, 121], .float32, [4, 1], [1, 1], false⟩, exSparse],
    [([120], 1), ([108, 97, 98, 101, 108, 95, 121], 0)]⟩

theorem exSchema_ok : SchemaOk exSchema := by
  refine ⟨rfl, ?_⟩
  intro a ha
  simp only [exSchema, List.mem_cons, List.not_mem_nil, or_false] at ha
  rcases ha with rfl | rfl
  · exact ⟨⟨4, rfl⟩, rfl, by decide, by decide, by decide, fun h => by cases h⟩
  · exact exSparse_ok

/-- An instance for it. -/
def exRecord (y : Nat) (vs ks : List Nat) : PRecord Nat :=
  ⟨[([121], .tensor .float32 ⟨[y], [], []⟩)], [([120], .tensor .float32 ⟨vs, ks, [2, 3]⟩)]⟩

example : SchemaOk exSchema ∧ NoClash (exRecord 1 [7, 8] [5, 1]) ∧
    (recordRun true exSchema (some (exRecord 1 [7, 8] [5, 1]))).2 = .ok true ∧
    (recordRun true exSchema (some (exRecord 1 [7, 8] [5, 6]))).2 = .err .invalidInstance ∧
    (recordRun false exSchema (some (exRecord 1 [7, 8] [5]))).2 = .ok false :=
  ⟨exSchema_ok, by unfold NoClash; decide, rfl, rfl, rfl⟩

/-- Features are only counted.  A label `x` and a feature `label_x` both stand for the attribute `label_x`, so that an
instance that has both and lacks the attribute `y` is accepted. -/
theorem C41_name_clash_violated :
    ∃ (s : Schema) (r : PRecord Nat), SchemaOk s ∧ (recordRun true s (some r)).2 = .ok true ∧ ¬ Conforms s r := by
  refine ⟨⟨[⟨labelPrefix ++ [120], .float32, [4, 1], [1, 1], false⟩, ⟨[121], .float32, [4, 1], [1, 1], false⟩],
      [([121], 1), (labelPrefix ++ [120], 0)]⟩,
    ⟨[([120], .tensor .float32 ⟨[1], [], []⟩)], [(labelPrefix ++ [120], .tensor .float32 ⟨[2], [], []⟩)]⟩, ⟨rfl, ?_⟩, rfl, ?_⟩
  · intro a ha
    simp only [List.mem_cons, List.not_mem_nil, or_false] at ha
    rcases ha with rfl | rfl
    · exact ⟨⟨4, rfl⟩, rfl, by decide, by decide, by decide, fun h => by cases h⟩
    · exact ⟨⟨4, rfl⟩, rfl, by decide, by decide, by decide, fun h => by cases h⟩
  · rintro ⟨h, _⟩
    obtain ⟨v, hv, _⟩ := h ⟨[121], .float32, [4, 1], [1, 1], false⟩ (by simp)
    simp [PRecord.entries, labelPrefix] at hv

/-! ## C40 -/

/-- What C40 assumes about the batch: the instances fit into it, the dense tensors can be allocated, and no two features
of an instance end up with the same name. -/
structure BatchOk (s : Schema) (size : Nat) (rs : List (Option (PRecord V))) : Prop where
  fits : rs.length ≤ size
  alloc : ∀ a ∈ s.attrs, a.sparse = false → size * numElements a.shape.tail < 2 ^ 64
  names : ∀ r ∈ rs, ∀ x, r = some x → NoClash x

/-- C40: the example of a batch has, for each attribute of the schema in order, a tensor that holds the values of the
conforming instances row by row: a sparse one has exactly their elements, each with the coordinates of its key and the
number of its row, in coordinate vectors as long as the data, and a dense one starts with their values and has zeros
behind them.  The padding is the number of rows without an instance.  This is so for every outcome that decoding the
batch may have, one instance after the other or in parallel.

Partial: in the modes `pad` and `pad_warn`, bad instances must not have values for sparse attributes that pass the
checks made before values are appended, and if the last instance is bad nothing is said about the row behind the
conforming instances in dense tensors (see the `_violated` theorems); in the other modes a batch with a bad instance
gives no example (`C40_bad`). -/
theorem C40_batch_partial (zero : V) (h : BadHandling) (s : Schema) (hs : SchemaOk s) (size : Nat)
    (rs : List (Option (PRecord V))) (hb : BatchOk s size rs)
    (hbad : ∀ r ∈ rs, IsBad s r → (h = .pad ∨ h = .padWarn) ∧ NoSparse s r)
    (o : Res (Option (ProtoExample V))) (ho : ProtoBatch zero h s size rs o) :
    ∃ ts, o = .ok (some ⟨ts, size - (conforming s rs).length⟩) ∧
      ts.length = s.attrs.length ∧
      ∀ (i : Nat) (a : Attr), s.attrs[i]? = some a →
        ∃ t, ts[i]? = some t ∧ FeatureHolds zero (LastBad s rs) a size (rowsOf a (conforming s rs)) t := by
  obtain ⟨ss, i1, i2, i3⟩ := initSlots_ok zero size s.attrs hs.attrs hb.alloc
  unfold ProtoBatch at ho
  split at ho
  · obtain ⟨ss', j1, j2⟩ := protoSerial_ok zero h s hs size rs [] ss False (by intro g hg; simp at hg) ⟨i2, i3⟩
      (by simpa using hb.fits) (fun r hr => ⟨hb.names r hr, hbad r hr⟩)
    obtain ⟨ts, k1, k2, k3⟩ := Holds.build hs (j2.mono (dirty' := LastBad s rs) (by rintro (⟨_, h⟩ | h); exact h.elim; exact h))
    refine ⟨ts, ?_, k2, by simpa using k3⟩
    simp only [List.length_nil, Nat.zero_add] at j1
    simp only [ho, protoDecode, i1, protoExample, j1, k1]
  · next hn =>
    obtain ⟨hp, hd⟩ := not_serially hn
    rw [i1] at ho
    obtain ⟨r, hr, rfl⟩ := ho
    have hg : ∀ r ∈ rs, ¬ IsBad s r := fun r hr hb' => by
      rcases (hbad r hr hb').1 with h' | h'
      · exact hp.1 h'
      · exact hp.2 h'
    obtain ⟨ss', rfl, j2⟩ := protoPrl_good zero h hp s hs hd size rs hb.fits hb.names hg ss ⟨i2, i3⟩ r hr
    obtain ⟨ts, k1, k2, k3⟩ := Holds.build hs (j2.mono (dirty' := LastBad s rs) False.elim)
    refine ⟨ts, ?_, k2, k3⟩
    have hlen : (conforming s rs).length = rs.length := by
      conv => rhs; rw [conforming_of_good s rs hg]
      simp
    simp only [protoExample, k1, hlen]

/-- C40: a batch with a bad instance raises an error or is dropped. -/
theorem C40_bad (zero : V) (h : BadHandling) (s : Schema) (hs : SchemaOk s) (size : Nat)
    (rs : List (Option (PRecord V))) (hb : BatchOk s size rs) (hbad : ∃ r ∈ rs, IsBad s r)
    (o : Res (Option (ProtoExample V))) (ho : ProtoBatch zero h s size rs o) :
    (h = .error → o = .err .invalidInstance) ∧ (h = .skip ∨ h = .skipWarn → o = .ok none) := by
  obtain ⟨ss, i1, i2, i3⟩ := initSlots_ok zero size s.attrs hs.attrs hb.alloc
  have hfit : SlotsAll (fun _ a x => SlotFits a size x) s ss := ⟨i2, fun i a x ha hx => (i3 i a x ha hx).fits⟩
  unfold ProtoBatch at ho
  split at ho
  · obtain ⟨h1, h2⟩ := protoSerial_bad h s hs size rs 0 ss hfit (by simpa using hb.fits) hb.names hbad
    constructor
    · intro hh
      simp only [ho, protoDecode, i1, h1 hh, protoExample]
    · intro hh
      obtain ⟨ss', h3⟩ := h2 hh
      simp only [ho, protoDecode, i1, h3, protoExample]
  · next hn =>
    obtain ⟨hp, hd⟩ := not_serially hn
    rw [i1] at ho
    obtain ⟨r, hr, rfl⟩ := ho
    obtain ⟨h1, h2⟩ := protoPrl_bad h hp s hs size rs hb.fits hb.names hbad ss hfit r hr
    constructor
    · intro hh
      rw [h1 hh]
      rfl
    · intro hh
      obtain ⟨ss', rfl⟩ := h2 (by rcases hh with rfl | rfl <;> simp)
      rfl

/-- C40: whatever the instances are, there is no undefined behaviour: the batch gives an example with a tensor for each
attribute, or nothing, or one of two errors. -/
theorem C40_no_undefined_behaviour (zero : V) (h : BadHandling) (s : Schema) (hs : SchemaOk s) (size : Nat)
    (rs : List (Option (PRecord V))) (hl : rs.length ≤ size)
    (ha : ∀ a ∈ s.attrs, a.sparse = false → size * numElements a.shape.tail < 2 ^ 64)
    (o : Res (Option (ProtoExample V))) (ho : ProtoBatch zero h s size rs o) :
    (∃ ex, o = .ok (some ex) ∧ ex.features.length = s.attrs.length) ∨
    o = .ok none ∨ o = .err .invalidInstance ∨ o = .err .invalidArgument := by
  obtain ⟨ss, i1, i2, i3⟩ := initSlots_ok zero size s.attrs hs.attrs ha
  have hfit : SlotsAll (fun _ a x => SlotFits a size x) s ss := ⟨i2, fun i a x ha hx => (i3 i a x ha hx).fits⟩
  have key : ∃ r, o = protoExample size r ∧
      ((∃ n ss', r = .ok (n, ss') ∧ SlotsAll (fun _ a x => SlotFits a size x) s ss') ∨
        (h = .error ∧ r = .err .invalidInstance)) := by
    unfold ProtoBatch at ho
    split at ho
    · exact ⟨protoSerial h s rs 0 ss, by simp only [ho, protoDecode, i1],
        protoSerial_safe h s hs size rs 0 ss hfit (by simpa using hl)⟩
    · next hn =>
      rw [i1] at ho
      obtain ⟨r, hr, rfl⟩ := ho
      exact ⟨r, rfl, protoPrl_safe h (not_serially hn).1 s hs size rs hl ss hfit r hr⟩
  obtain ⟨r, rfl, ⟨n, ss', rfl, h2⟩ | ⟨_, rfl⟩⟩ := key
  · cases n with
    | none => exact Or.inr (Or.inl rfl)
    | some n =>
      have hb := buildAll_safe ss' (by
        intro x hx
        obtain ⟨i, hi⟩ := List.mem_iff_getElem?.1 hx
        have hlt : i < s.attrs.length := by rw [← h2.1]; exact (List.getElem?_eq_some_iff.1 hi).1
        have ha' : s.attrs[i]? = some s.attrs[i] := List.getElem?_eq_getElem hlt
        exact build_safe _ (hs.attrs _ (List.mem_of_getElem? ha')) size x (h2.2 i _ x ha' hi))
      rcases hb with ⟨ts, h3, h4⟩ | h3
      · left
        simp only [protoExample, h3]
        exact ⟨_, rfl, h4.trans h2.1⟩
      · right; right; right
        simp only [protoExample, h3]
  · right; right; left
    rfl

/-- C40: decoding a batch has some outcome. -/
theorem C40_outcome (zero : V) (h : BadHandling) (s : Schema) (hs : SchemaOk s) (size : Nat)
    (rs : List (Option (PRecord V))) (hl : rs.length ≤ size)
    (ha : ∀ a ∈ s.attrs, a.sparse = false → size * numElements a.shape.tail < 2 ^ 64) :
    ∃ o, ProtoBatch zero h s size rs o := by
  obtain ⟨ss, i1, i2, i3⟩ := initSlots_ok zero size s.attrs hs.attrs ha
  have hfit : SlotsAll (fun _ a x => SlotFits a size x) s ss := ⟨i2, fun i a x ha hx => (i3 i a x ha hx).fits⟩
  unfold ProtoBatch
  split
  · exact ⟨_, rfl⟩
  · next hn =>
    rw [i1]
    obtain ⟨r, hr⟩ := protoPrl_some h (not_serially hn).1 s hs size rs hl ss hfit
    exact ⟨_, r, hr, rfl⟩

/-- A schema with one large dense attribute. -/
def exLarge : Schema := ⟨[⟨[120], .float32, [4, 5000000], [5000000, 1], false⟩], [([120], 0)]⟩

/-- Batches are decoded one instance after the other if the schema has a sparse attribute, and in parallel if they have
enough values. -/
example (rs : List (Option (PRecord Nat))) :
    ProtoBatch 0 .error exSchema 4 rs (protoDecode 0 .error exSchema 4 rs) ∧
    protoRunsSerially .error exLarge 1 = true ∧ protoRunsSerially .error exLarge 2 = false ∧
    protoRunsSerially .pad exLarge 2 = true ∧ SchemaOk exLarge := by
  refine ⟨?_, by decide, by decide, by decide, rfl, ?_⟩
  · have : protoRunsSerially .error exSchema rs.length = true := by
      simp [protoRunsSerially, exSchema, exSparse]
    simp [ProtoBatch, this]
  · intro a ha
    simp only [exLarge, List.mem_cons, List.not_mem_nil, or_false] at ha
    subst ha
    exact ⟨⟨4, rfl⟩, rfl, by decide, by decide, by decide, fun h => by cases h⟩

theorem exConforms : Conforms exSchema (exRecord 1 [7, 8] [5, 1]) :=
  (C41_accepted_iff_partial true exSchema exSchema_ok _ (by unfold NoClash; decide)).1.1 rfl

theorem exNotConforms : ¬ Conforms exSchema (exRecord 1 [7, 8] [5, 6]) := fun h =>
  absurd ((C41_accepted_iff_partial false exSchema exSchema_ok _ (by unfold NoClash; decide)).1.2 h) (by decide)

example : BatchOk exSchema 4 [some (exRecord 1 [7, 8] [5, 1]), none] ∧
    (∀ r ∈ [some (exRecord 1 [7, 8] [5, 1]), none], IsBad exSchema r → NoSparse exSchema r) ∧
    protoDecode 0 .pad exSchema 4 [some (exRecord 1 [7, 8] [5, 1]), none, some (exRecord 2 [9] [0])] =
      .ok (some ⟨[.dense [4, 1] [1, 2, 0, 0], .coo [4, 2, 3] [7, 8, 9] [[0, 0, 1], [1, 0, 0], [2, 1, 0]]], 2⟩) := by
  refine ⟨⟨by decide, ?_, ?_⟩, ?_, by rfl⟩
  · intro a ha _
    simp only [exSchema, List.mem_cons, List.not_mem_nil, or_false] at ha
    rcases ha with rfl | rfl <;> decide
  · intro r hr x hx
    simp only [List.mem_cons, List.not_mem_nil, or_false] at hr
    rcases hr with rfl | rfl
    · cases hx; unfold NoClash; decide
    · cases hx
  · intro r hr hbad
    simp only [List.mem_cons, List.not_mem_nil, or_false] at hr
    rcases hr with rfl | rfl
    · exact absurd exConforms (hbad _ rfl)
    · intro x hx; cases hx

example : IsBad exSchema (some (exRecord 1 [7, 8] [5, 6])) ∧
    protoDecode 0 .skip exSchema 4 [some (exRecord 1 [7, 8] [5, 1]), some (exRecord 1 [7, 8] [5, 6])] = .ok none ∧
    protoDecode 0 .error exSchema 4 [some (exRecord 1 [7, 8] [5, 1]), some (exRecord 1 [7, 8] [5, 6])] =
      .err .invalidInstance :=
  ⟨fun _ hx => by cases hx; exact exNotConforms, by rfl, by rfl⟩

/-- In the mode `pad` one invalid key makes the whole batch fail: the values were appended, but not all of the
coordinates, and the constructor of the tensor rejects them. -/
theorem C40_invalid_key_violated :
    protoDecode 0 .pad exSchema 4 [some (exRecord 1 [7, 8] [5, 1]), some (exRecord 1 [7, 8] [5, 6])] =
      .err .invalidArgument := by rfl

/-- In the mode `pad` an instance that fails at a later feature leaves its values behind: the example has one good
instance (padding 3), but its tensor holds the values of the bad one in row 0 and those of the good one in row 1.  Here
the bad instance has its features in the order `x`, `z`, and `z` is unknown. -/
theorem C40_row_drift_violated :
    protoDecode 0 .pad exSchema 4
      [some ⟨[], [([120], .tensor .float32 ⟨[7], [5], [2, 3]⟩), ([122], .unset)]⟩, some (exRecord 1 [9] [0])] =
      .ok (some ⟨[.dense [4, 1] [1, 0, 0, 0], .coo [4, 2, 3] [7, 9] [[0, 1], [1, 0], [2, 0]]], 3⟩) := by rfl

/-- In the mode `pad` a bad instance at the end of a batch leaves its dense values behind the good ones: row 1 belongs to
the padding (which is 3), but is not zero.  The label of the second instance is fine; its feature `x` has an invalid
data type. -/
theorem C40_padding_violated :
    protoDecode 0 .pad exSchema 4
      [some (exRecord 1 [7] [5]), some ⟨[([121], .tensor .float32 ⟨[2], [], []⟩)], [([120], .unset)]⟩] =
      .ok (some ⟨[.dense [4, 1] [1, 2, 0, 0], .coo [4, 2, 3] [7] [[0], [1], [2]]], 3⟩) := by rfl

/-! ## C63 -/

/-- C63: the schema inferred from an instance all of whose features are tensors that make sense has an attribute for
each feature, and the instance conforms to it and is accepted when it is decoded. -/
theorem C63_inferred_schema (batch : Nat) (errorBad : Bool) (r : PRecord V) (hc : NoClash r)
    (h : ∀ e ∈ r.entries, ∃ dt t, e.2 = .tensor dt t ∧ TensorOk t) :
    ∃ s, protoSchema batch (some (some r)) = .ok (some s) ∧ SchemaOk s ∧
      s.attrs.map Attr.name = r.entries.map Prod.fst ∧ Conforms s r ∧
      (recordRun errorBad s (some r)).2 = .ok true := by
  obtain ⟨s, h1, h2, h3, h4⟩ := protoSchema_ok batch r hc h
  exact ⟨s, h1, h2, h4, h3, (recordRun_out errorBad s h2 r hc).1 h3⟩

theorem exTensorOk : TensorOk (V := Nat) ⟨[7, 8], [5, 1], [2, 3]⟩ :=
  ⟨by decide, by decide, fun h => absurd (Or.inl (by simp)) h, fun _ => by decide⟩

example : NoClash (exRecord 1 [7, 8] [5, 1]) ∧ TensorOk (V := Nat) ⟨[7, 8], [5, 1], [2, 3]⟩ ∧
    TensorOk (V := Nat) ⟨[1], [], []⟩ ∧ protoSchema 4 (some (some (exRecord 1 [7, 8] [5, 1]))) = .ok (some exSchema) :=
  ⟨by unfold NoClash; decide, exTensorOk,
    ⟨by decide, by decide, fun _ => rfl, fun h => by rcases h with h | h <;> simp at h⟩, by rfl⟩

/-- C63: a message whose features clash gives no schema. -/
theorem C63_clash (batch : Nat) (r : PRecord V) (hc : ¬ NoClash r)
    (h : ∀ e ∈ r.entries, ∃ dt t, e.2 = .tensor dt t ∧ TensorOk t) :
    protoSchema batch (some (some r)) = .err .invalidArgument := by
  obtain ⟨as, h1, h2, _⟩ := protoAttrs_ok batch r.entries h
  have hnd : ¬ (as.map Attr.name).Nodup := by rw [h2]; exact hc
  rcases schemaLoop_spec as 0 [] with ⟨he, hn⟩ | ⟨m, he, hnd', _⟩
  · have hm : makeSchema as = .err .invalidArgument := by simp only [makeSchema, he]
    simp only [protoSchema, h1, hm]
  · exact absurd hnd' hnd

example : ¬ NoClash (V := Nat)
    ⟨[([120], .tensor .float32 ⟨[1], [], []⟩)], [(labelPrefix ++ [120], .tensor .float32 ⟨[2], [], []⟩)]⟩ := by
  unfold NoClash; decide

end Mlio
