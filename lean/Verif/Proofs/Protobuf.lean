import Verif.Spec.Protobuf
import Verif.Proofs.Tensor

namespace Mlio
open Spec

variable {V : Type}

/-! ## Keys -/

theorem numElements_tail_pos : ∀ (dims : List Nat), (∀ d ∈ dims, 0 < d) → 0 < numElements dims
  | [], _ => by simp [numElements]
  | d :: ds, h => Nat.mul_pos (h d (by simp)) (numElements_tail_pos ds (fun x hx => h x (by simp [hx])))

theorem splitKey_spec : ∀ (dims : List Nat) (k : Nat), dims ≠ [] → StridesFit dims → (∀ d ∈ dims.tail, 0 < d) →
    (k < numElements dims → splitKey dims (rowMajor dims) k = .ok (unravel dims k, true)) ∧
    (¬ k < numElements dims → ∃ r, splitKey dims (rowMajor dims) k = .ok (r, false))
  | [], _, h, _, _ => absurd rfl h
  | [d], k, _, _, _ => by
    have h1 : asSize ((numElements [] : Nat) : Int) = 1 := by decide
    constructor
    · intro hk
      simp only [numElements, Nat.mul_one] at hk
      simp only [rowMajor, splitKey, h1]
      rw [if_neg (by decide), if_neg (by simp; omega)]
      simp [unravel, numElements]
    · intro hk
      simp only [numElements, Nat.mul_one] at hk
      simp only [rowMajor, splitKey, h1]
      rw [if_neg (by decide), if_pos (by simp; omega)]
      exact ⟨_, rfl⟩
  | d :: e :: ds, k, _, hf, hp => by
    have hpos : 0 < numElements (e :: ds) := numElements_tail_pos _ hp
    have h1 : asSize ((numElements (e :: ds) : Nat) : Int) = numElements (e :: ds) :=
      asSize_nat _ (Nat.lt_trans hf.1 (by decide))
    have hp' : ∀ x ∈ (e :: ds).tail, 0 < x := fun x hx => hp x (by
      simp only [List.tail_cons, List.mem_cons] at hx ⊢; exact Or.inr hx)
    have ih := (splitKey_spec (e :: ds) (k % numElements (e :: ds)) (by simp) hf.2 hp').1 (Nat.mod_lt _ hpos)
    have e1 : rowMajor (d :: e :: ds) = ((numElements (e :: ds) : Nat) : Int) :: rowMajor (e :: ds) := rfl
    have e2 : numElements (d :: e :: ds) = d * numElements (e :: ds) := rfl
    rw [e1, e2]
    constructor
    · intro hk
      rw [splitKey, h1, if_neg (by omega), if_neg (by rw [ge_iff_le, Nat.le_div_iff_mul_le hpos]; omega), ih]
      rfl
    · intro hk
      rw [splitKey, h1, if_neg (by omega), if_pos (by rw [ge_iff_le, Nat.le_div_iff_mul_le hpos]; omega)]
      exact ⟨_, rfl⟩

theorem unravel_spec : ∀ (dims : List Nat) (k : Nat), k < numElements dims →
    InShape (unravel dims k) dims ∧ offset (unravel dims k) (rowMajor dims) = k
  | [], k, h => by
    simp only [numElements] at h
    exact ⟨trivial, by simp [unravel, offset]; omega⟩
  | d :: ds, k, h => by
    have h' : k < d * numElements ds := h
    have hpos : 0 < numElements ds := by
      rcases Nat.eq_zero_or_pos (numElements ds) with h0 | h0
      · rw [h0] at h'; simp at h'
      · exact h0
    obtain ⟨h1, h2⟩ := unravel_spec ds (k % numElements ds) (Nat.mod_lt _ hpos)
    refine ⟨⟨?_, h1⟩, ?_⟩
    · exact (Nat.div_lt_iff_lt_mul hpos).2 h'
    · simp only [unravel, rowMajor, offset, h2]
      have := Nat.div_add_mod k (numElements ds)
      rw [Nat.mul_comm] at this
      exact_mod_cast this

theorem unravel_length : ∀ (dims : List Nat) (k : Nat), (unravel dims k).length = dims.length
  | [], _ => rfl
  | _ :: ds, k => by simp [unravel, unravel_length ds]

/-! ## The builder -/

theorem pushCoords_columns (n : Nat) (es : List (List Nat × V)) (i : List Nat) (v : V) (h : i.length = n) :
    pushCoords (columns n es) i = columns n (es ++ [(i, v)]) := by
  have key : ∀ (cs : List (List Nat)) (is : List Nat), is.length = cs.length →
      pushCoords cs is = List.zipWith (fun c x => c ++ [x]) cs is := by
    intro cs
    induction cs with
    | nil => intro is _; cases is <;> simp [pushCoords]
    | cons c cs ih =>
      intro is hl
      cases is with
      | nil => simp at hl
      | cons x xs => simp [pushCoords, ih xs (by simpa using hl)]
  rw [key _ _ (by simp [columns, h])]
  apply List.ext_getElem
  · simp [columns, h]
  · intro j h1 h2
    simp only [columns, List.length_zipWith, List.length_map, List.length_range] at h1 h2
    simp [columns, List.getD_eq_getElem?_getD, List.getElem?_eq_getElem (show j < i.length by omega)]

/-- The keys as elements. -/
def keyEntries (dims : List Nat) (row : Nat) (kvs : List (Nat × V)) : List (List Nat × V) :=
  kvs.map fun kv => (row :: unravel dims kv.1, kv.2)

theorem appendKeys_spec (dims : List Nat) (bs : Nat) (hd : dims ≠ []) (hf : StridesFit (bs :: dims))
    (hp : ∀ d ∈ dims.tail, 0 < d) : ∀ (kvs : List (Nat × V)) (b : CooBuilder V) (es : List (List Nat × V)),
    b.shape = bs :: dims → b.strides = rowMajor (bs :: dims) → b.coords = columns (dims.length + 1) es →
    ((∀ kv ∈ kvs, kv.1 < numElements dims) →
      b.appendKeys (kvs.map Prod.fst) =
        .ok (true, ⟨b.shape, b.strides, b.batch, b.row + 1, b.data,
          columns (dims.length + 1) (es ++ keyEntries dims b.row kvs)⟩)) ∧
    ((¬ ∀ kv ∈ kvs, kv.1 < numElements dims) → ∃ b', b.appendKeys (kvs.map Prod.fst) = .ok (false, b')) := by
  have hf' : StridesFit dims := by
    cases dims with
    | nil => trivial
    | cons d ds => exact hf.2
  intro kvs
  induction kvs with
  | nil =>
    intro b es h1 h2 h3
    refine ⟨fun _ => ?_, fun h => absurd (by simp) h⟩
    simp [CooBuilder.appendKeys, keyEntries, h3]
  | cons kv kvs ih =>
    intro b es h1 h2 h3
    have hsp := splitKey_spec dims kv.1 hd hf' hp
    have e1 : b.shape.tail = dims := by rw [h1]; rfl
    have e2 : b.strides.tail = rowMajor dims := by rw [h2]; rfl
    by_cases hk : kv.1 < numElements dims
    · have hpc := pushCoords_columns (dims.length + 1) es (b.row :: unravel dims kv.1) kv.2
        (by simp [unravel_length])
      have step : b.appendKeys ((kv :: kvs).map Prod.fst) =
          CooBuilder.appendKeys ⟨b.shape, b.strides, b.batch, b.row, b.data,
            columns (dims.length + 1) (es ++ [(b.row :: unravel dims kv.1, kv.2)])⟩ (kvs.map Prod.fst) := by
        simp only [List.map_cons, CooBuilder.appendKeys, e1, e2, hsp.1 hk, if_true, h3, hpc]
      rw [step]
      obtain ⟨i1, i2⟩ := ih ⟨b.shape, b.strides, b.batch, b.row, b.data,
        columns (dims.length + 1) (es ++ [(b.row :: unravel dims kv.1, kv.2)])⟩ _ h1 h2 rfl
      constructor
      · intro hall
        rw [i1 (fun x hx => hall x (by simp [hx]))]
        simp [keyEntries]
      · intro hall
        exact i2 (fun h => hall (fun x hx => by
          simp only [List.mem_cons] at hx
          rcases hx with rfl | hx
          · exact hk
          · exact h x hx))
    · refine ⟨fun hall => absurd (hall kv (by simp)) hk, fun _ => ?_⟩
      obtain ⟨r, hr⟩ := hsp.2 hk
      simp only [List.map_cons, CooBuilder.appendKeys, e1, e2, hr]
      exact ⟨_, rfl⟩

theorem keysOk_spec (dims : List Nat) (bs : Nat) (hd : dims ≠ []) (hf : StridesFit (bs :: dims))
    (hp : ∀ d ∈ dims.tail, 0 < d) : ∀ (ks : List Nat),
    ((∀ k ∈ ks, k < numElements dims) → keysOk (bs :: dims) (rowMajor (bs :: dims)) ks = .ok true) ∧
    ((¬ ∀ k ∈ ks, k < numElements dims) → keysOk (bs :: dims) (rowMajor (bs :: dims)) ks = .ok false) := by
  have hf' : StridesFit dims := by
    cases dims with
    | nil => trivial
    | cons d ds => exact hf.2
  intro ks
  induction ks with
  | nil => exact ⟨fun _ => rfl, fun h => absurd (by simp) h⟩
  | cons k ks ih =>
    have hsp := splitKey_spec dims k hd hf' hp
    have e2 : (rowMajor (bs :: dims)).tail = rowMajor dims := rfl
    by_cases hk : k < numElements dims
    · simp only [keysOk, List.tail_cons, e2, hsp.1 hk]
      simp only [List.mem_cons, forall_eq_or_imp, hk, true_and]
      exact ih
    · obtain ⟨r, hr⟩ := hsp.2 hk
      simp only [keysOk, List.tail_cons, e2, hr]
      exact ⟨fun h => absurd (h k (by simp)) hk, fun _ => by trivial⟩

/-! ## An instance -/

theorem isSparse_iff (t : PTensor V) : isSparse t = true ↔ Sparse t := by
  rcases t with ⟨vs, ks, sh⟩
  cases ks <;> cases vs <;> cases sh <;> simp [isSparse, Sparse]

theorem shapeEquals_iff (b : Nat) (dims : List Nat) (hd : dims ≠ []) (t : PTensor V) :
    shapeEquals (b :: dims) t = true ↔ ShapeFits dims t := by
  rcases t with ⟨vs, ks, sh⟩
  unfold shapeEquals ShapeFits
  cases sh with
  | nil =>
    simp only [List.isEmpty_nil, if_true, true_and]
    rcases dims with _ | ⟨d, _ | ⟨e, ds⟩⟩
    · exact absurd rfl hd
    · simp
    · simp
  | cons x xs =>
    simp only [List.isEmpty_cons, Bool.false_eq_true, if_false, List.tail_cons]
    by_cases hl : dims.length = (x :: xs).length
    · rw [if_neg (by simp only [List.length_cons] at hl ⊢; omega)]
      simp only [beq_iff_eq, reduceCtorEq, false_and, or_false]
      exact eq_comm
    · rw [if_pos (by simp only [List.length_cons] at hl ⊢; omega)]
      simp only [reduceCtorEq, false_and, or_false, false_iff, Bool.false_eq_true]
      intro h
      exact hl (by rw [h])

theorem Spec.SchemaOk.index {s : Schema} (h : SchemaOk s) :
    (s.attrs.map Attr.name).Nodup ∧ (∀ i a, s.attrs[i]? = some a → s.getIndex a.name = some i) ∧
    (∀ n, n ∉ s.attrs.map Attr.name → s.getIndex n = none) := by
  have hm := h.made
  unfold makeSchema at hm
  rcases schemaLoop_spec s.attrs 0 [] with ⟨he, _⟩ | ⟨m', he, hn, _, hi, ho⟩
  · rw [he] at hm; cases hm
  · rw [he] at hm
    simp only [Res.ok.injEq] at hm
    have hix : s.index = m' := by rw [← hm]
    refine ⟨hn, fun i a ha => ?_, fun n hnn => ?_⟩
    · have := hi i a ha
      simpa [Schema.getIndex, hix] using this
    · have := ho n hnn
      simpa [Schema.getIndex, hix] using this

theorem featureRun_unknown (eb : Bool) (s : Schema) (h : SchemaOk s) (n : Bytes) (v : PValue V)
    (hn : n ∉ s.attrs.map Attr.name) : featureRun eb s n v = (none, badInstance eb) := by
  unfold featureRun
  rw [h.index.2.2 n hn]

/-- What a good value is written as. -/
def goodWrite (a : Attr) (t : PTensor V) : PWrite V := if a.sparse then .sparse t.values t.keys else .dense t.values

theorem featureRun_known (eb : Bool) (s : Schema) (h : SchemaOk s) (i : Nat) (a : Attr) (ha : s.attrs[i]? = some a)
    (v : PValue V) :
    (∀ t, v = .tensor a.dt t → TensorFits a t → featureRun eb s a.name v = (some (i, goodWrite a t), .ok true)) ∧
    (¬ ValueFits a v → (featureRun eb s a.name v).2 = badInstance eb ∧
      ((featureRun eb s a.name v).1 = none ∨ Appendable a v ∧ ∃ t, v = .tensor a.dt t ∧
        (featureRun eb s a.name v).1 = some (i, .sparse t.values t.keys))) := by
  have hok := h.attrs a (List.mem_of_getElem? ha)
  obtain ⟨b, hb⟩ := hok.shape
  have hst : a.strides = ((numElements a.shape.tail : Nat) : Int) :: rowMajor a.shape.tail := by
    rw [hok.strides, hb]
    rfl
  have hse : ∀ t : PTensor V, shapeEquals a.shape t = true ↔ ShapeFits a.shape.tail t := by
    intro t
    have := shapeEquals_iff b a.shape.tail hok.rank t
    rwa [← hb] at this
  have hks : ∀ (t : PTensor V), a.sparse = true →
      ((∀ k ∈ t.keys, k < numElements a.shape.tail) → keysOk a.shape a.strides t.keys = .ok true) ∧
      ((¬ ∀ k ∈ t.keys, k < numElements a.shape.tail) → keysOk a.shape a.strides t.keys = .ok false) := by
    intro t hsp
    have hfit := hok.fit
    rw [hb] at hfit
    have := keysOk_spec a.shape.tail b hok.rank hfit (hok.pos hsp) t.keys
    rw [← hb, ← hok.strides] at this
    exact this
  have hbi : badInstance eb ≠ .ok true := by unfold badInstance; cases eb <;> simp
  constructor
  · rintro t rfl hfit
    unfold featureRun
    rw [h.index.2.1 i a ha]
    simp only [ha]
    rw [if_neg (by simp)]
    unfold TensorFits at hfit
    cases hsp : a.sparse with
    | true =>
      rw [hsp] at hfit
      simp only [if_true] at hfit
      rw [if_neg (by rw [(isSparse_iff t).2 hfit.2.1]; simp), if_neg (by rw [(hse t).2 hfit.1]; simp), if_pos rfl,
        if_neg (by simpa using hfit.2.2.1), (hks t hsp).1 hfit.2.2.2]
      simp [goodWrite, hsp]
    | false =>
      rw [hsp] at hfit
      simp only [Bool.false_eq_true, if_false] at hfit
      have hns : isSparse t = false := by
        cases hi : isSparse t with
        | false => rfl
        | true => exact absurd ((isSparse_iff t).1 hi) hfit.2.1
      rw [if_neg (by rw [hns]; simp), if_neg (by rw [(hse t).2 hfit.1]; simp), if_neg (by simp),
        if_neg (by rw [hst, hfit.2.2]; simp)]
      simp [goodWrite, hsp]
  · intro hnf
    unfold featureRun
    rw [h.index.2.1 i a ha]
    simp only [ha]
    cases v with
    | bytes => exact ⟨rfl, Or.inl rfl⟩
    | unset => exact ⟨rfl, Or.inl rfl⟩
    | tensor dt t =>
      simp only
      by_cases hdt : a.dt ≠ dt
      · rw [if_pos hdt]; exact ⟨rfl, Or.inl rfl⟩
      · have hdt' : a.dt = dt := Classical.not_not.1 hdt
        rw [if_neg hdt]
        by_cases hss : isSparse t ≠ a.sparse
        · rw [if_pos hss]; exact ⟨rfl, Or.inl rfl⟩
        · have hss' := Classical.not_not.1 hss
          rw [if_neg hss]
          by_cases hsh : shapeEquals a.shape t = true
          · rw [if_neg (by rw [hsh]; simp)]
            cases hsp : a.sparse with
            | true =>
              rw [hsp] at hss'
              rw [if_pos rfl]
              by_cases hl : t.keys.length ≠ t.values.length
              · rw [if_pos hl]; exact ⟨rfl, Or.inl rfl⟩
              · have hl' := Classical.not_not.1 hl
                rw [if_neg hl]
                have hbad : ¬ ∀ k ∈ t.keys, k < numElements a.shape.tail := by
                  intro hall
                  refine hnf ⟨t, by rw [hdt'], (hse t).1 hsh, ?_⟩
                  rw [if_pos hsp]
                  exact ⟨(isSparse_iff t).1 hss', hl', hall⟩
                rw [(hks t hsp).2 hbad]
                exact ⟨rfl, Or.inr ⟨⟨t, by rw [hdt'], hsp, (isSparse_iff t).1 hss', (hse t).1 hsh, hl'⟩, t,
                  by rw [hdt'], rfl⟩⟩
            | false =>
              rw [hsp] at hss'
              rw [if_neg (by simp)]
              by_cases hl : a.strides.head? ≠ some (t.values.length : Int)
              · rw [if_pos hl]; exact ⟨rfl, Or.inl rfl⟩
              · exfalso
                have hl' := Classical.not_not.1 hl
                rw [hst] at hl'
                simp only [List.head?_cons, Option.some.injEq] at hl'
                refine hnf ⟨t, by rw [hdt'], (hse t).1 hsh, ?_⟩
                rw [if_neg (by simp [hsp])]
                exact ⟨fun hs => Bool.noConfusion (((isSparse_iff t).2 hs).symm.trans hss'), by omega⟩
          · rw [if_pos (by simpa using hsh)]; exact ⟨rfl, Or.inl rfl⟩

/-- The features are known and fit. -/
def AllFit (s : Schema) (es : List (Bytes × PValue V)) : Prop :=
  ∀ e ∈ es, ∃ a ∈ s.attrs, a.name = e.1 ∧ ValueFits a e.2

theorem badInstance_ne (eb : Bool) : badInstance eb ≠ .ok true := by
  unfold badInstance; cases eb <;> simp

theorem featuresRun_out (eb : Bool) (s : Schema) (h : SchemaOk s) : ∀ (es : List (Bytes × PValue V)),
    (AllFit s es → (featuresRun eb s es).2 = .ok true) ∧ (¬ AllFit s es → (featuresRun eb s es).2 = badInstance eb)
  | [] => ⟨fun _ => rfl, fun hn => absurd (by intro e he; simp at he) hn⟩
  | (n, v) :: es => by
    obtain ⟨i1, i2⟩ := featuresRun_out eb s h es
    by_cases hk : n ∈ s.attrs.map Attr.name
    · obtain ⟨a, ha, rfl⟩ := List.mem_map.1 hk
      obtain ⟨i, hi⟩ := List.mem_iff_getElem?.1 ha
      have hr := featureRun_known eb s h i a hi v
      by_cases hv : ValueFits a v
      · obtain ⟨t, rfl, ht⟩ := hv
        simp only [featuresRun, hr.1 t rfl ht]
        have hiff : AllFit s ((a.name, .tensor a.dt t) :: es) ↔ AllFit s es := by
          constructor
          · intro hx e he; exact hx e (by simp [he])
          · intro hx e he
            simp only [List.mem_cons] at he
            rcases he with rfl | he
            · exact ⟨a, ha, rfl, t, rfl, ht⟩
            · exact hx e he
        rw [hiff]
        exact ⟨i1, i2⟩
      · have hb := hr.2 hv
        have hnot : ¬ AllFit s ((a.name, v) :: es) := by
          intro hx
          obtain ⟨a', ha', hn', hv'⟩ := hx (a.name, v) (by simp)
          obtain ⟨j, hj⟩ := List.mem_iff_getElem?.1 ha'
          have e1 := h.index.2.1 i a hi
          have e2 := h.index.2.1 j a' hj
          simp only at hn'
          rw [hn', e1] at e2
          simp only [Option.some.injEq] at e2
          subst e2
          rw [hi] at hj
          simp only [Option.some.injEq] at hj
          subst hj
          exact hv hv'
        refine ⟨fun hx => absurd hx hnot, fun _ => ?_⟩
        rcases hf : featureRun eb s a.name v with ⟨w, o⟩
        rw [hf] at hb
        simp only at hb
        simp only [featuresRun, hf, hb.1]
        have := badInstance_ne eb
        unfold badInstance at *
        cases eb <;> rfl
    · have hnot : ¬ AllFit s ((n, v) :: es) := by
        intro hx
        obtain ⟨a', ha', hn', _⟩ := hx (n, v) (by simp)
        exact hk (List.mem_map.2 ⟨a', ha', hn'⟩)
      refine ⟨fun hx => absurd hx hnot, fun _ => ?_⟩
      simp only [featuresRun, featureRun_unknown eb s h n v hk]
      unfold badInstance
      cases eb <;> rfl

/-- A duplicate-free part of a list with as many elements contains all of it. -/
theorem nodup_covers {α : Type} [DecidableEq α] {l m : List α} (hl : l.Nodup) (hs : ∀ x ∈ l, x ∈ m)
    (hlen : l.length = m.length) (hm : m.Nodup) : ∀ x ∈ m, x ∈ l := by
  intro x hx
  apply Classical.byContradiction
  intro hn
  have hnd : (x :: l).Nodup := List.nodup_cons.2 ⟨hn, hl⟩
  have := hnd.length_le_of_subset (l₂ := m) (by
    intro y hy
    simp only [List.mem_cons] at hy
    rcases hy with rfl | hy
    · exact hx
    · exact hs y hy)
  simp only [List.length_cons] at this
  omega

theorem conforms_iff (s : Schema) (h : SchemaOk s) (r : PRecord V) (hc : NoClash r) :
    Conforms s r ↔ AllFit s r.entries ∧ r.entries.length = s.attrs.length := by
  have hnd := h.index.1
  constructor
  · rintro ⟨h1, h2⟩
    constructor
    · intro e he
      obtain ⟨a, ha, hn⟩ := List.mem_map.1 (h2 e he)
      refine ⟨a, ha, hn, ?_⟩
      obtain ⟨v, hv, hf⟩ := h1 a ha
      have : e.2 = v := by
        have hp : r.entries.Pairwise (fun x y => x.1 ≠ y.1) := List.pairwise_map.1 hc
        apply Classical.byContradiction
        intro hne
        rcases List.mem_iff_getElem.1 he with ⟨i, hi, hie⟩
        rcases List.mem_iff_getElem.1 hv with ⟨j, hj, hje⟩
        rcases Nat.lt_trichotomy i j with hij | hij | hij
        · exact List.pairwise_iff_getElem.1 hp i j hi hj hij (by rw [hie, hje]; exact hn.symm)
        · subst hij
          rw [hie] at hje
          exact hne (by rw [hje])
        · exact List.pairwise_iff_getElem.1 hp j i hj hi hij (by rw [hie, hje]; exact hn)
      rw [this]
      exact hf
    · have a1 := hc.length_le_of_subset (l₂ := s.attrs.map Attr.name) (by
        intro n hn
        obtain ⟨e, he, rfl⟩ := List.mem_map.1 hn
        exact h2 e he)
      have a2 := hnd.length_le_of_subset (l₂ := r.entries.map Prod.fst) (by
        intro n hn
        obtain ⟨a, ha, rfl⟩ := List.mem_map.1 hn
        obtain ⟨v, hv, _⟩ := h1 a ha
        exact List.mem_map.2 ⟨_, hv, rfl⟩)
      simp only [List.length_map] at a1 a2
      omega
  · rintro ⟨h1, h2⟩
    have hsub : ∀ n ∈ r.entries.map Prod.fst, n ∈ s.attrs.map Attr.name := by
      intro n hn
      obtain ⟨e, he, rfl⟩ := List.mem_map.1 hn
      obtain ⟨a, ha, hn', _⟩ := h1 e he
      exact List.mem_map.2 ⟨a, ha, hn'⟩
    refine ⟨?_, fun e he => hsub _ (List.mem_map.2 ⟨e, he, rfl⟩)⟩
    intro a ha
    have hcov := nodup_covers hc hsub (by simpa using h2) hnd a.name (List.mem_map.2 ⟨a, ha, rfl⟩)
    obtain ⟨e, he, hn⟩ := List.mem_map.1 hcov
    obtain ⟨a', ha', hn', hv⟩ := h1 e he
    obtain ⟨i, hi⟩ := List.mem_iff_getElem?.1 ha
    obtain ⟨j, hj⟩ := List.mem_iff_getElem?.1 ha'
    have e1 := h.index.2.1 i a hi
    have e2 := h.index.2.1 j a' hj
    rw [hn', hn, e1] at e2
    simp only [Option.some.injEq] at e2
    subst e2
    rw [hi] at hj
    simp only [Option.some.injEq] at hj
    subst hj
    exact ⟨e.2, by rw [← hn]; exact he, hv⟩

theorem recordRun_out (eb : Bool) (s : Schema) (h : SchemaOk s) (r : PRecord V) (hc : NoClash r) :
    (Conforms s r → (recordRun eb s (some r)).2 = .ok true) ∧
    (¬ Conforms s r → (recordRun eb s (some r)).2 = badInstance eb) := by
  obtain ⟨h1, h2⟩ := featuresRun_out eb s h r.entries
  rw [conforms_iff s h r hc]
  rcases hf : featuresRun eb s r.entries with ⟨ws, o⟩
  rw [hf] at h1 h2
  simp only at h1 h2
  by_cases ha : AllFit s r.entries
  · have := h1 ha
    subst this
    simp only [recordRun, hf]
    constructor
    · rintro ⟨_, hl⟩
      rw [if_pos hl]
    · intro hn
      rw [if_neg (fun hl => hn ⟨ha, hl⟩)]
  · refine ⟨fun hx => absurd hx.1 ha, fun _ => ?_⟩
    have := h2 ha
    subst this
    simp only [recordRun, hf]
    unfold badInstance
    cases eb <;> rfl

end Mlio
