import Verif.Proofs.Protobuf

namespace Mlio
open Spec

variable {V : Type}

/-! ## What an instance writes -/

/-- A write that suits the attribute. -/
def WriteOk (a : Attr) (w : PWrite V) : Prop :=
  if a.sparse then ∃ vs ks, w = .sparse vs ks else ∃ vs, w = .dense vs ∧ vs.length = numElements a.shape.tail

theorem featuresRun_writes (eb : Bool) (s : Schema) (h : SchemaOk s) : ∀ (es : List (Bytes × PValue V)) (i : Nat) (w : PWrite V),
    (i, w) ∈ (featuresRun eb s es).1 → ∃ a, s.attrs[i]? = some a ∧ WriteOk a w ∧
      (a.sparse = true → ∃ v, (a.name, v) ∈ es ∧ Appendable a v)
  | [], i, w, hm => by simp [featuresRun] at hm
  | (n, v) :: es, i, w, hm => by
    have ih := featuresRun_writes eb s h es i w
    have lift : (i, w) ∈ (featuresRun eb s es).1 → ∃ a, s.attrs[i]? = some a ∧ WriteOk a w ∧
        (a.sparse = true → ∃ u, (a.name, u) ∈ (n, v) :: es ∧ Appendable a u) := by
      intro hx
      obtain ⟨a, h1, h2, h3⟩ := ih hx
      refine ⟨a, h1, h2, fun hs => ?_⟩
      obtain ⟨u, hu, hu'⟩ := h3 hs
      exact ⟨u, by simp [hu], hu'⟩
    by_cases hk : n ∈ s.attrs.map Attr.name
    · obtain ⟨a, ha, rfl⟩ := List.mem_map.1 hk
      obtain ⟨j, hj⟩ := List.mem_iff_getElem?.1 ha
      have hr := featureRun_known eb s h j a hj v
      by_cases hv : ValueFits a v
      · obtain ⟨t, rfl, ht⟩ := hv
        simp only [featuresRun, hr.1 t rfl ht, Option.toList_some, List.cons_append, List.nil_append, List.mem_cons] at hm
        rcases hm with hm | hm
        · simp only [Prod.mk.injEq] at hm
          obtain ⟨rfl, rfl⟩ := hm
          refine ⟨a, hj, ?_, fun hs => ⟨_, by simp, t, rfl, hs, ?_⟩⟩
          · unfold WriteOk goodWrite
            unfold TensorFits at ht
            cases hsp : a.sparse with
            | true => simp
            | false =>
              rw [hsp] at ht
              simp only [Bool.false_eq_true, if_false] at ht ⊢
              exact ⟨_, rfl, ht.2.2⟩
          · unfold TensorFits at ht
            rw [if_pos hs] at ht
            exact ⟨ht.2.1, ht.1, ht.2.2.1⟩
        · exact lift hm
      · have hb := hr.2 hv
        rcases hf : featureRun eb s a.name v with ⟨w', o⟩
        rw [hf] at hb
        simp only at hb
        have hm' : (i, w) ∈ w'.toList := by
          simp only [featuresRun, hf, hb.1] at hm
          unfold badInstance at hm
          cases eb <;> exact hm
        rcases hb.2 with hn | ⟨hap, t, ht, hw⟩
        · rw [hn] at hm'; simp at hm'
        · rw [hw] at hm'
          simp only [Option.toList_some, List.mem_singleton, Prod.mk.injEq] at hm'
          obtain ⟨rfl, rfl⟩ := hm'
          have hsp : a.sparse = true := by obtain ⟨_, _, hsp, _⟩ := hap; exact hsp
          refine ⟨a, hj, ?_, fun _ => ⟨v, by simp, hap⟩⟩
          unfold WriteOk
          rw [if_pos hsp]
          exact ⟨_, _, rfl⟩
    · have hm' : (i, w) ∈ (none : Option (Nat × PWrite V)).toList := by
        simp only [featuresRun, featureRun_unknown eb s h n v hk] at hm
        unfold badInstance at hm
        cases eb <;> exact hm
      simp at hm'

theorem featuresRun_good (eb : Bool) (s : Schema) (h : SchemaOk s) : ∀ (es : List (Bytes × PValue V)),
    (es.map Prod.fst).Nodup → AllFit s es →
    ((featuresRun eb s es).1.map Prod.fst).Nodup ∧
    (∀ i w, (i, w) ∈ (featuresRun eb s es).1 → ∃ a t, s.attrs[i]? = some a ∧ (a.name, .tensor a.dt t) ∈ es ∧
      TensorFits a t ∧ w = goodWrite a t) ∧
    (∀ i a v, s.attrs[i]? = some a → (a.name, v) ∈ es → ∃ w, (i, w) ∈ (featuresRun eb s es).1)
  | [], _, _ => by simp [featuresRun]
  | (n, v) :: es, hnd, hall => by
    simp only [List.map_cons, List.nodup_cons] at hnd
    obtain ⟨i1, i2, i3⟩ := featuresRun_good eb s h es hnd.2 (fun e he => hall e (by simp [he]))
    obtain ⟨a, ha, hn, t, hv, ht⟩ := hall (n, v) (by simp)
    simp only at hn hv
    subst hn hv
    obtain ⟨j, hj⟩ := List.mem_iff_getElem?.1 ha
    have hr := (featureRun_known eb s h j a hj (.tensor a.dt t)).1 t rfl ht
    simp only [featuresRun, hr, Option.toList_some, List.cons_append, List.nil_append, List.map_cons, List.nodup_cons,
      List.mem_cons]
    refine ⟨⟨?_, i1⟩, ?_, ?_⟩
    · intro hmem
      obtain ⟨⟨i, w⟩, hw, hi⟩ := List.mem_map.1 hmem
      simp only at hi
      subst hi
      obtain ⟨a', t', ha', hm', _⟩ := i2 _ w hw
      rw [hj] at ha'
      simp only [Option.some.injEq] at ha'
      subst ha'
      exact hnd.1 (List.mem_map.2 ⟨_, hm', rfl⟩)
    · intro i w hw
      rcases hw with hw | hw
      · simp only [Prod.mk.injEq] at hw
        obtain ⟨rfl, rfl⟩ := hw
        exact ⟨a, t, hj, Or.inl rfl, ht, rfl⟩
      · obtain ⟨a', t', h1, h2, h3⟩ := i2 i w hw
        exact ⟨a', t', h1, Or.inr h2, h3⟩
    · intro i a' v' ha' hv'
      rcases hv' with hv' | hv'
      · simp only [Prod.mk.injEq] at hv'
        have e1 := h.index.2.1 i a' ha'
        have e2 := h.index.2.1 j a hj
        rw [hv'.1, e2] at e1
        simp only [Option.some.injEq] at e1
        subst e1
        exact ⟨_, Or.inl rfl⟩
      · obtain ⟨w, hw⟩ := i3 i a' v' ha' hv'
        exact ⟨w, Or.inr hw⟩

theorem recordRun_writes (eb : Bool) (s : Schema) (r : PRecord V) :
    (recordRun eb s (some r)).1 = (featuresRun eb s r.entries).1 := by
  rcases hf : featuresRun eb s r.entries with ⟨ws, o⟩
  simp only [recordRun, hf]
  split <;> simp_all

/-! ## Slots -/

/-- The slot belongs to the attribute. -/
def SlotFits (a : Attr) (size : Nat) (s : Slot V) : Prop :=
  if a.sparse then ∃ b, s = .sparse b ∧ b.shape = a.shape ∧ b.strides = a.strides ∧ b.batch = size ∧ b.coords.length = a.shape.length
  else ∃ data, s = .dense (size :: a.shape.tail) data ∧ data.length = size * numElements a.shape.tail

/-- The slot holds the given rows, and zeros behind them (if `dirty`, behind the row that follows them). -/
def SlotHolds (zero : V) (dirty : Prop) (a : Attr) (size : Nat) (rows : List (PTensor V)) (s : Slot V) : Prop :=
  if a.sparse then
    s = .sparse ⟨a.shape, a.strides, size, rows.length, (cooEntries a.shape.tail rows).map Prod.snd,
      columns a.shape.length (cooEntries a.shape.tail rows)⟩
  else
    ∃ data, s = .dense (size :: a.shape.tail) data ∧ data.length = size * numElements a.shape.tail ∧
      (rows.map PTensor.values).flatten <+: data ∧ (rows.map PTensor.values).flatten.length = rows.length * numElements a.shape.tail ∧
      ZeroFrom zero dirty (rows.length * numElements a.shape.tail) (numElements a.shape.tail) data

theorem SlotHolds.fits {zero : V} {dirty : Prop} {a : Attr} {size : Nat} {rows : List (PTensor V)} {s : Slot V}
    (h : SlotHolds zero dirty a size rows s) :
    SlotFits a size s := by
  unfold SlotHolds at h
  unfold SlotFits
  cases hs : a.sparse with
  | true =>
    rw [hs] at h
    simp only [if_true] at h ⊢
    exact ⟨_, h, rfl, rfl, rfl, by simp [columns]⟩
  | false =>
    rw [hs] at h
    simp only [Bool.false_eq_true, if_false] at h ⊢
    obtain ⟨d, h1, h2, _⟩ := h
    exact ⟨d, h1, h2⟩

theorem cooEntries_append (dims : List Nat) (rows : List (PTensor V)) (t : PTensor V) :
    cooEntries dims (rows ++ [t]) = cooEntries dims rows ++ keyEntries dims rows.length (t.keys.zip t.values) := by
  simp [cooEntries, keyEntries, List.zipIdx_append]

theorem splice_length (l : List V) (off : Nat) (vs : List V) (h : off + vs.length ≤ l.length) :
    (splice l off vs).length = l.length := by
  simp [splice]; omega

theorem splice_prefix (l p : List V) (off : Nat) (vs : List V) (hp : p <+: l) (h : p.length = off) :
    p ++ vs <+: splice l off vs := by
  have : l.take off = p := by
    rw [← h]
    exact (List.prefix_iff_eq_take.1 hp).symm
  unfold splice
  rw [this]
  exact List.prefix_append _ _

theorem splice_getElem? (l : List V) (off : Nat) (vs : List V) (h : off + vs.length ≤ l.length) (j : Nat) :
    (splice l off vs)[j]? = if off ≤ j ∧ j < off + vs.length then vs[j - off]? else l[j]? := by
  unfold splice
  have h1 : (l.take off).length = off := by simp; omega
  rw [List.getElem?_append, List.getElem?_append, List.length_append, h1]
  by_cases c1 : j < off
  · rw [if_pos (by omega), if_pos c1, if_neg (by omega), List.getElem?_take, if_pos c1]
  · by_cases c2 : j < off + vs.length
    · rw [if_pos c2, if_neg c1, if_pos (by omega)]
    · rw [if_neg c2, if_neg (by omega), List.getElem?_drop]
      congr 1
      omega

theorem zeroFrom_good {zero : V} {dirty : Prop} {start row : Nat} {data vs : List V}
    (h : ZeroFrom zero dirty start row data) (hv : vs.length = row) (hle : start + vs.length ≤ data.length) :
    ZeroFrom zero False (start + row) row (splice data start vs) := by
  intro j x hj hx
  rw [splice_getElem? _ _ _ hle, if_neg (by omega)] at hx
  exact h j x (by omega) hx

theorem zeroFrom_bad {zero : V} {dirty : Prop} {start row : Nat} {data vs : List V}
    (h : ZeroFrom zero dirty start row data) (hv : vs.length = row) (hle : start + vs.length ≤ data.length) :
    ZeroFrom zero True start row (splice data start vs) := by
  intro j x hj hx
  have hj : start + row ≤ j := by
    rcases hj with h | h
    · exact h
    · exact absurd trivial h.2
  rw [splice_getElem? _ _ _ hle, if_neg (by omega)] at hx
  exact h j x (Or.inl hj) hx

theorem zeroFrom_mono {zero : V} {dirty dirty' : Prop} {start row : Nat} {data : List V} (hd : dirty → dirty')
    (h : ZeroFrom zero dirty start row data) : ZeroFrom zero dirty' start row data := by
  intro j x hj hx
  refine h j x ?_ hx
  rcases hj with h | h
  · exact Or.inl h
  · exact Or.inr ⟨h.1, fun c => h.2 (hd c)⟩

theorem SlotHolds.mono {zero : V} {dirty dirty' : Prop} {a : Attr} {size : Nat} {rows : List (PTensor V)} {s : Slot V}
    (h : SlotHolds zero dirty a size rows s) (hd : dirty → dirty') : SlotHolds zero dirty' a size rows s := by
  unfold SlotHolds at h ⊢
  split
  · next hs => rw [if_pos hs] at h; exact h
  · next hs =>
    rw [if_neg hs] at h
    obtain ⟨data, h1, h2, h3, h4, h5⟩ := h
    exact ⟨data, h1, h2, h3, h4, zeroFrom_mono hd h5⟩

theorem pushCoords_length : ∀ (cs : List (List Nat)) (is : List Nat), (pushCoords cs is).length = cs.length
  | [], _ => by simp [pushCoords]
  | _ :: _, [] => by simp [pushCoords]
  | _ :: cs, _ :: is => by simp [pushCoords, pushCoords_length cs is]

theorem appendKeys_safe (dims : List Nat) (bs : Nat) (hd : dims ≠ []) (hf : StridesFit (bs :: dims))
    (hp : ∀ d ∈ dims.tail, 0 < d) : ∀ (ks : List Nat) (b : CooBuilder V),
    b.shape = bs :: dims → b.strides = rowMajor (bs :: dims) →
    ∃ o b', b.appendKeys ks = .ok (o, b') ∧ b'.shape = b.shape ∧ b'.strides = b.strides ∧ b'.batch = b.batch ∧
      b'.coords.length = b.coords.length
  | [], b, _, _ => ⟨_, _, rfl, rfl, rfl, rfl, rfl⟩
  | k :: ks, b, h1, h2 => by
    have hf' : StridesFit dims := by
      cases dims with
      | nil => trivial
      | cons d ds => exact hf.2
    have hsp := splitKey_spec dims k hd hf' hp
    have e1 : b.shape.tail = dims := by rw [h1]; rfl
    have e2 : b.strides.tail = rowMajor dims := by rw [h2]; rfl
    by_cases hk : k < numElements dims
    · simp only [CooBuilder.appendKeys, e1, e2, hsp.1 hk, if_true]
      obtain ⟨o, b', i1, i2, i3, i4, i5⟩ := appendKeys_safe dims bs hd hf hp ks
        { b with coords := pushCoords b.coords (b.row :: unravel dims k) } h1 h2
      exact ⟨o, b', i1, i2, i3, i4, by rw [i5]; exact pushCoords_length _ _⟩
    · obtain ⟨r, hr⟩ := hsp.2 hk
      simp only [CooBuilder.appendKeys, e1, e2, hr, Bool.false_eq_true, if_false]
      exact ⟨_, _, rfl, rfl, rfl, rfl, pushCoords_length _ _⟩

theorem write_safe (a : Attr) (ha : AttrOk a a.shape.tail) (size row : Nat) (hr : row < size) (s : Slot V)
    (w : PWrite V) (hs : SlotFits a size s) (hw : WriteOk a w) : ∃ s', s.write row w = .ok s' ∧ SlotFits a size s' := by
  unfold SlotFits at hs
  unfold WriteOk at hw
  obtain ⟨b0, hb0⟩ := ha.shape
  cases hsp : a.sparse with
  | true =>
    rw [hsp] at hs hw
    simp only [if_true] at hs hw
    obtain ⟨b, rfl, h1, h2, h3, h4⟩ := hs
    obtain ⟨vs, ks, rfl⟩ := hw
    have hfit := ha.fit
    rw [hb0] at hfit
    obtain ⟨o, b', i1, i2, i3, i4, i5⟩ := appendKeys_safe a.shape.tail b0 ha.rank hfit (ha.pos hsp) ks
      { b with data := b.data ++ vs } (h1.trans hb0) (by rw [h2, ha.strides, ← hb0])
    refine ⟨.sparse b', ?_, ?_⟩
    · simp only [Slot.write, CooBuilder.append, i1]
    · unfold SlotFits
      rw [hsp]
      simp only [if_true]
      exact ⟨b', rfl, i2.trans h1, i3.trans h2, i4.trans h3, i5.trans h4⟩
  | false =>
    rw [hsp] at hs hw
    simp only [Bool.false_eq_true, if_false] at hs hw
    obtain ⟨data, rfl, h1⟩ := hs
    obtain ⟨vs, rfl, h2⟩ := hw
    have hle : row * vs.length + vs.length ≤ data.length := by
      rw [h1, h2, ← Nat.succ_mul]
      exact Nat.mul_le_mul_right _ hr
    refine ⟨.dense (size :: a.shape.tail) (splice data (row * vs.length) vs), ?_, ?_⟩
    · simp only [Slot.write]
      rw [if_pos hle]
    · unfold SlotFits
      rw [hsp]
      simp only [Bool.false_eq_true, if_false]
      exact ⟨_, rfl, by rw [splice_length _ _ _ hle, h1]⟩

theorem write_good (zero : V) (dirty : Prop) (a : Attr) (ha : AttrOk a a.shape.tail) (size : Nat) (rows : List (PTensor V)) (hr : rows.length < size)
    (s : Slot V) (t : PTensor V) (hs : SlotHolds zero dirty a size rows s) (ht : TensorFits a t) :
    ∃ s', s.write rows.length (goodWrite a t) = .ok s' ∧ SlotHolds zero False a size (rows ++ [t]) s' := by
  unfold SlotHolds at hs
  unfold TensorFits at ht
  obtain ⟨b0, hb0⟩ := ha.shape
  cases hsp : a.sparse with
  | true =>
    rw [hsp] at hs ht
    simp only [if_true] at hs ht
    subst hs
    have hfit := ha.fit
    rw [hb0] at hfit
    have hlen : a.shape.length = a.shape.tail.length + 1 := by
      have := congrArg List.length hb0
      simpa using this
    have hst : a.strides = rowMajor (b0 :: a.shape.tail) := by rw [ha.strides, ← hb0]
    have hz : (t.keys.zip t.values).map Prod.fst = t.keys := by
      rw [List.map_fst_zip (by omega)]
    have hz2 : (t.keys.zip t.values).map Prod.snd = t.values := by
      rw [List.map_snd_zip (by omega)]
    have hsp1 := (appendKeys_spec a.shape.tail b0 ha.rank hfit (ha.pos hsp) (t.keys.zip t.values)
      ⟨a.shape, a.strides, size, rows.length, (cooEntries a.shape.tail rows).map Prod.snd ++ t.values,
        columns a.shape.length (cooEntries a.shape.tail rows)⟩ (cooEntries a.shape.tail rows) hb0 hst
      (by simp only; rw [hlen])).1
      (fun kv hkv => ht.2.2.2 kv.1 (List.of_mem_zip hkv).1)
    rw [hz] at hsp1
    refine ⟨.sparse ⟨a.shape, a.strides, size, (rows ++ [t]).length, (cooEntries a.shape.tail (rows ++ [t])).map Prod.snd,
      columns a.shape.length (cooEntries a.shape.tail (rows ++ [t]))⟩, ?_, ?_⟩
    rotate_left
    · unfold SlotHolds
      rw [hsp]
      simp only [if_true]
    · simp only [goodWrite, hsp, if_true, Slot.write, CooBuilder.append, hsp1]
      simp only [cooEntries_append, List.map_append, hlen, List.length_append, List.length_cons, List.length_nil,
        Nat.zero_add]
      have : (keyEntries a.shape.tail rows.length (t.keys.zip t.values)).map Prod.snd = t.values := by
        simp only [keyEntries, List.map_map]
        exact hz2
      rw [this]
  | false =>
    rw [hsp] at hs ht
    simp only [Bool.false_eq_true, if_false] at hs ht
    obtain ⟨data, rfl, h1, h2, h3, hz⟩ := hs
    have hle : rows.length * t.values.length + t.values.length ≤ data.length := by
      rw [h1, ht.2.2, ← Nat.succ_mul]
      exact Nat.mul_le_mul_right _ hr
    refine ⟨.dense (size :: a.shape.tail) (splice data (rows.length * t.values.length) t.values), ?_, ?_⟩
    · simp only [goodWrite, hsp, Bool.false_eq_true, if_false, Slot.write]
      rw [if_pos hle]
    · unfold SlotHolds
      rw [hsp]
      simp only [Bool.false_eq_true, if_false]
      refine ⟨_, rfl, by rw [splice_length _ _ _ hle, h1], ?_, ?_, ?_⟩
      · rw [List.map_append, List.flatten_append]
        simp only [List.map_cons, List.map_nil, List.flatten_cons, List.flatten_nil, List.append_nil]
        exact splice_prefix _ _ _ _ h2 (by rw [h3, ht.2.2])
      · rw [List.map_append, List.flatten_append]
        simp only [List.map_cons, List.map_nil, List.flatten_cons, List.flatten_nil, List.append_nil, List.length_append,
          List.length_cons, List.length_nil, h3, ht.2.2]
        rw [Nat.add_mul]
        omega
      · rw [List.length_append, List.length_singleton, Nat.succ_mul, ← ht.2.2]
        exact zeroFrom_good (by rw [ht.2.2]; exact hz) rfl hle

theorem write_bad_dense (zero : V) (dirty : Prop) (a : Attr) (size : Nat) (rows : List (PTensor V)) (hr : rows.length < size) (hsp : a.sparse = false)
    (s : Slot V) (w : PWrite V) (hs : SlotHolds zero dirty a size rows s) (hw : WriteOk a w) :
    ∃ s', s.write rows.length w = .ok s' ∧ SlotHolds zero True a size rows s' := by
  unfold SlotHolds at hs
  unfold WriteOk at hw
  rw [hsp] at hs hw
  simp only [Bool.false_eq_true, if_false] at hs hw
  obtain ⟨data, rfl, h1, h2, h3, hz⟩ := hs
  obtain ⟨vs, rfl, h4⟩ := hw
  have hle : rows.length * vs.length + vs.length ≤ data.length := by
    rw [h1, h4, ← Nat.succ_mul]
    exact Nat.mul_le_mul_right _ hr
  refine ⟨.dense (size :: a.shape.tail) (splice data (rows.length * vs.length) vs), ?_, ?_⟩
  · simp only [Slot.write]
    rw [if_pos hle]
  · unfold SlotHolds
    rw [hsp]
    simp only [Bool.false_eq_true, if_false]
    refine ⟨_, rfl, by rw [splice_length _ _ _ hle, h1], ?_, h3, ?_⟩
    · exact (List.prefix_append _ _).trans (splice_prefix _ _ _ _ h2 (by rw [h3, h4]))
    · rw [← h4]
      exact zeroFrom_bad (by rw [h4]; exact hz) rfl hle

/-- A property of the slots and attributes, position by position. -/
def SlotsAll (P : Nat → Attr → Slot V → Prop) (s : Schema) (ss : List (Slot V)) : Prop :=
  ss.length = s.attrs.length ∧ ∀ i a x, s.attrs[i]? = some a → ss[i]? = some x → P i a x

/-- Writes that keep a property of their own slot. -/
theorem writeSlots_keep (P : Nat → Attr → Slot V → Prop) (s : Schema) (row : Nat) : ∀ (ws : List (Nat × PWrite V)) (ss : List (Slot V)),
    SlotsAll P s ss →
    (∀ i w, (i, w) ∈ ws → ∃ a, s.attrs[i]? = some a ∧ ∀ x, P i a x → ∃ x', x.write row w = .ok x' ∧ P i a x') →
    ∃ ss', writeSlots row ss ws = .ok ss' ∧ SlotsAll P s ss'
  | [], ss, h, _ => ⟨ss, rfl, h⟩
  | (i, w) :: ws, ss, h, hw => by
    obtain ⟨a, ha, hx⟩ := hw i w (by simp)
    have hlt : i < ss.length := by rw [h.1]; exact (List.getElem?_eq_some_iff.1 ha).1
    have hi : ss[i]? = some ss[i] := List.getElem?_eq_getElem hlt
    obtain ⟨x', h1, h2⟩ := hx _ (h.2 i a _ ha hi)
    simp only [writeSlots, hi, h1]
    refine writeSlots_keep P s row ws _ ⟨by simpa using h.1, ?_⟩ (fun j v hv => hw j v (by simp [hv]))
    intro j a' y ha' hy
    rw [List.getElem?_set] at hy
    by_cases hij : i = j
    · subst hij
      rw [if_pos rfl, if_pos hlt] at hy
      simp only [Option.some.injEq] at hy
      subst hy
      rw [ha] at ha'
      simp only [Option.some.injEq] at ha'
      subst ha'
      exact h2
    · rw [if_neg hij] at hy
      exact h.2 j a' y ha' hy

/-- Writes to distinct slots. -/
theorem writeSlots_distinct (P Q : Nat → Attr → Slot V → Prop) (s : Schema) (row : Nat) (ws : List (Nat × PWrite V)) (ss : List (Slot V))
    (h : SlotsAll P s ss) (hnd : (ws.map Prod.fst).Nodup)
    (hw : ∀ i w, (i, w) ∈ ws → ∃ a, s.attrs[i]? = some a ∧ ∀ x, P i a x → ∃ x', x.write row w = .ok x' ∧ Q i a x')
    (hall : ∀ i a, s.attrs[i]? = some a → ∃ w, (i, w) ∈ ws) :
    ∃ ss', writeSlots row ss ws = .ok ss' ∧ SlotsAll Q s ss' := by
  classical
  suffices H : ∀ (ws : List (Nat × PWrite V)) (ss : List (Slot V)) (D : Nat → Prop),
      SlotsAll (fun i a x => if D i then Q i a x else P i a x) s ss → (ws.map Prod.fst).Nodup → (∀ i w, (i, w) ∈ ws → ¬ D i) →
      (∀ i w, (i, w) ∈ ws → ∃ a, s.attrs[i]? = some a ∧ ∀ x, P i a x → ∃ x', x.write row w = .ok x' ∧ Q i a x') →
      ∃ ss', writeSlots row ss ws = .ok ss' ∧
        SlotsAll (fun i a x => if D i ∨ ∃ w, (i, w) ∈ ws then Q i a x else P i a x) s ss' by
    obtain ⟨ss', h1, h2, h3⟩ := H ws ss (fun _ => False) (by simpa using h) hnd (by simp) hw
    refine ⟨ss', h1, h2, fun i a x ha hx => ?_⟩
    have := h3 i a x ha hx
    simp only at this
    rwa [if_pos (Or.inr (hall i a ha))] at this
  intro ws
  induction ws with
  | nil =>
    intro ss D h _ _ _
    exact ⟨ss, rfl, by simpa using h⟩
  | cons iw ws ih =>
    obtain ⟨i, w⟩ := iw
    intro ss D h hnd hD hw
    simp only [List.map_cons, List.nodup_cons] at hnd
    obtain ⟨a, ha, hx⟩ := hw i w (by simp)
    have hlt : i < ss.length := by rw [h.1]; exact (List.getElem?_eq_some_iff.1 ha).1
    have hi : ss[i]? = some ss[i] := List.getElem?_eq_getElem hlt
    have hp := h.2 i a _ ha hi
    simp only [if_neg (hD i w (by simp))] at hp
    obtain ⟨x', h1, h2⟩ := hx _ hp
    simp only [writeSlots, hi, h1]
    have hs1 : ∀ j a' y, s.attrs[j]? = some a' → (ss.set i x')[j]? = some y →
        if D j ∨ j = i then Q j a' y else P j a' y := by
      intro j a' y ha' hy
      rw [List.getElem?_set] at hy
      by_cases hij : i = j
      · subst hij
        rw [if_pos rfl, if_pos hlt] at hy
        simp only [Option.some.injEq] at hy
        subst hy
        rw [ha] at ha'
        simp only [Option.some.injEq] at ha'
        subst ha'
        simp only [or_true, if_true]
        exact h2
      · rw [if_neg hij] at hy
        have := h.2 j a' y ha' hy
        simp only [show (j = i) = False from by simp; exact fun e => hij e.symm, or_false]
        exact this
    have hs2 : ∀ j v, (j, v) ∈ ws → ¬ (D j ∨ j = i) := by
      rintro j v hv (hd | hd)
      · exact hD j v (by simp [hv]) hd
      · subst hd
        exact hnd.1 (List.mem_map.2 ⟨_, hv, rfl⟩)
    obtain ⟨ss', j1, j2, j3⟩ := ih (ss.set i x') (fun j => D j ∨ j = i) ⟨by simpa using h.1, (by
      intro j a' y h1 h2
      have := hs1 j a' y h1 h2
      by_cases hc : D j ∨ j = i
      · simp only [if_pos hc] at this ⊢
        exact this
      · simp only [if_neg hc] at this ⊢
        exact this)⟩ hnd.2 hs2
      (fun j v hv => hw j v (by simp [hv]))
    refine ⟨ss', j1, j2, fun j a' y ha' hy => ?_⟩
    have := j3 j a' y ha' hy
    simp only at this ⊢
    by_cases hc : D j ∨ ∃ v, (j, v) ∈ (i, w) :: ws
    · rw [if_pos hc]
      rw [if_pos (by
        rcases hc with hc | ⟨v, hv⟩
        · exact Or.inl (Or.inl hc)
        · simp only [List.mem_cons, Prod.mk.injEq] at hv
          rcases hv with hv | hv
          · exact Or.inl (Or.inr hv.1)
          · exact Or.inr ⟨v, hv⟩)] at this
      exact this
    · rw [if_neg hc]
      rw [if_neg (by
        rintro ((hd | hd) | ⟨v, hv⟩)
        · exact hc (Or.inl hd)
        · exact hc (Or.inr ⟨w, by simp [hd]⟩)
        · exact hc (Or.inr ⟨v, by simp [hv]⟩))] at this
      exact this

/-! ## The loop -/

theorem lookup_of_mem {α β : Type} [BEq α] [LawfulBEq α] : ∀ (l : List (α × β)) (a : α) (b : β), (l.map Prod.fst).Nodup →
    (a, b) ∈ l → l.lookup a = some b
  | [], _, _, _, h => by simp at h
  | (x, y) :: l, a, b, hnd, h => by
    simp only [List.map_cons, List.nodup_cons] at hnd
    simp only [List.mem_cons, Prod.mk.injEq] at h
    by_cases hax : a = x
    · subst hax
      rcases h with ⟨_, rfl⟩ | h
      · simp [List.lookup]
      · exact absurd (List.mem_map.2 ⟨_, h, rfl⟩) hnd.1
    · rcases h with ⟨hx, _⟩ | h
      · exact absurd hx hax
      · have : (a == x) = false := by simpa using hax
        simp only [List.lookup, this]
        exact lookup_of_mem l a b hnd.2 h

theorem tensorOf_mem {n : Bytes} {r : PRecord V} {dt : DataType} {t : PTensor V} (hc : NoClash r)
    (h : (n, .tensor dt t) ∈ r.entries) : tensorOf n r = some t := by
  unfold tensorOf
  rw [lookup_of_mem _ _ _ hc h]

theorem conforms_tensorOf {s : Schema} {r : PRecord V} (hc : NoClash r) (h : Conforms s r) (a : Attr) (ha : a ∈ s.attrs) :
    ∃ t, tensorOf a.name r = some t ∧ TensorFits a t := by
  obtain ⟨v, hv, t, rfl, ht⟩ := h.1 a ha
  exact ⟨t, tensorOf_mem hc hv, ht⟩

/-- All slots hold the rows of the given instances. -/
def Holds (zero : V) (dirty : Prop) (s : Schema) (size : Nat) (gs : List (PRecord V)) (ss : List (Slot V)) : Prop :=
  SlotsAll (fun _ a x => SlotHolds zero dirty a size (rowsOf a gs) x) s ss

theorem Holds.mono {zero : V} {dirty dirty' : Prop} {s : Schema} {size : Nat} {gs : List (PRecord V)} {ss : List (Slot V)}
    (h : Holds zero dirty s size gs ss) (hd : dirty → dirty') : Holds zero dirty' s size gs ss :=
  ⟨h.1, fun i a x ha hx => (h.2 i a x ha hx).mono hd⟩

theorem lastBad_cons_bad {s : Schema} {r : Option (PRecord V)} {rs : List (Option (PRecord V))} {dirty : Prop}
    (hb : IsBad s r) (h : (rs = [] ∧ True) ∨ LastBad s rs) : (r :: rs = [] ∧ dirty) ∨ LastBad s (r :: rs) := by
  right
  rcases h with ⟨rfl, _⟩ | ⟨x, h1, h2⟩
  · exact ⟨r, rfl, hb⟩
  · exact ⟨x, by rw [List.getLast?_cons, h1]; rfl, h2⟩

theorem lastBad_cons_good {s : Schema} {r : Option (PRecord V)} {rs : List (Option (PRecord V))} {dirty : Prop}
    (h : (rs = [] ∧ False) ∨ LastBad s rs) : (r :: rs = [] ∧ dirty) ∨ LastBad s (r :: rs) := by
  right
  rcases h with ⟨_, h⟩ | ⟨x, h1, h2⟩
  · exact h.elim
  · exact ⟨x, by rw [List.getLast?_cons, h1]; rfl, h2⟩

def Goods (s : Schema) (gs : List (PRecord V)) : Prop := ∀ g ∈ gs, NoClash g ∧ Conforms s g

theorem rowsOf_length {s : Schema} {gs : List (PRecord V)} (hg : Goods s gs) (a : Attr) (ha : a ∈ s.attrs) :
    (rowsOf a gs).length = gs.length := by
  induction gs with
  | nil => rfl
  | cons g gs ih =>
    obtain ⟨t, ht, _⟩ := conforms_tensorOf (hg g (by simp)).1 (hg g (by simp)).2 a ha
    have := ih (fun x hx => hg x (by simp [hx]))
    simp only [rowsOf] at this
    simp [rowsOf, ht, this]

theorem step_good (zero : V) (dirty : Prop) (eb : Bool) (s : Schema) (h : SchemaOk s) (size : Nat) (gs : List (PRecord V)) (ss : List (Slot V))
    (hg : Goods s gs) (hs : Holds zero dirty s size gs ss) (hlt : gs.length < size) (r : PRecord V) (hc : NoClash r) (hr : Conforms s r) :
    ∃ ss', writeSlots gs.length ss (recordRun eb s (some r)).1 = .ok ss' ∧ Holds zero False s size (gs ++ [r]) ss' := by
  rw [recordRun_writes]
  obtain ⟨f1, f2, f3⟩ := featuresRun_good eb s h r.entries hc ((conforms_iff s h r hc).1 hr).1
  refine writeSlots_distinct _ _ s gs.length _ ss hs f1 ?_ ?_
  · intro i w hw
    obtain ⟨a, t, ha, hm, ht, rfl⟩ := f2 i w hw
    have hmem := List.mem_of_getElem? ha
    refine ⟨a, ha, fun x hx => ?_⟩
    have hl := rowsOf_length hg a hmem
    obtain ⟨x', h1, h2⟩ := write_good zero dirty a (h.attrs a hmem) size (rowsOf a gs) (by omega) x t hx ht
    refine ⟨x', by rw [← hl]; exact h1, ?_⟩
    have : rowsOf a (gs ++ [r]) = rowsOf a gs ++ [t] := by
      simp [rowsOf, tensorOf_mem hc hm]
    rw [this]
    exact h2
  · intro i a ha
    obtain ⟨v, hv, _⟩ := hr.1 a (List.mem_of_getElem? ha)
    exact f3 i a v ha hv

theorem step_harmless (zero : V) (dirty : Prop) (eb : Bool) (s : Schema) (h : SchemaOk s) (size : Nat) (gs : List (PRecord V)) (ss : List (Slot V))
    (hg : Goods s gs) (hs : Holds zero dirty s size gs ss) (hlt : gs.length < size) (r : Option (PRecord V)) (hn : NoSparse s r) :
    ∃ ss', writeSlots gs.length ss (recordRun eb s r).1 = .ok ss' ∧ Holds zero True s size gs ss' := by
  cases r with
  | none => exact ⟨ss, rfl, hs.mono fun _ => trivial⟩
  | some r =>
    rw [recordRun_writes]
    refine writeSlots_keep _ s gs.length _ ss (hs.mono (dirty' := True) fun _ => trivial) ?_
    intro i w hw
    obtain ⟨a, ha, hok, hap⟩ := featuresRun_writes eb s h r.entries i w hw
    have hmem := List.mem_of_getElem? ha
    have hsp : a.sparse = false := by
      cases hsp : a.sparse with
      | false => rfl
      | true =>
        obtain ⟨v, hv, hv'⟩ := hap hsp
        exact absurd hv' (hn r rfl a hmem v hv)
    refine ⟨a, ha, fun x hx => ?_⟩
    have hl := rowsOf_length hg a hmem
    obtain ⟨x', h1, h2⟩ := write_bad_dense zero True a size (rowsOf a gs) (by omega) hsp x w hx hok
    exact ⟨x', by rw [← hl]; exact h1, h2⟩

theorem step_safe (eb : Bool) (s : Schema) (h : SchemaOk s) (size row : Nat) (ss : List (Slot V))
    (hs : SlotsAll (fun _ a x => SlotFits a size x) s ss) (hlt : row < size) (r : Option (PRecord V)) :
    ∃ ss', writeSlots row ss (recordRun eb s r).1 = .ok ss' ∧ SlotsAll (fun _ a x => SlotFits a size x) s ss' := by
  cases r with
  | none => exact ⟨ss, rfl, hs⟩
  | some r =>
    rw [recordRun_writes]
    refine writeSlots_keep _ s row _ ss hs ?_
    intro i w hw
    obtain ⟨a, ha, hok, _⟩ := featuresRun_writes eb s h r.entries i w hw
    exact ⟨a, ha, fun x hx => write_safe a (h.attrs a (List.mem_of_getElem? ha)) size row hlt x w hx hok⟩

theorem Holds.fits {zero : V} {dirty : Prop} {s : Schema} {size : Nat} {gs : List (PRecord V)} {ss : List (Slot V)}
    (h : Holds zero dirty s size gs ss) :
    SlotsAll (fun _ a x => SlotFits a size x) s ss :=
  ⟨h.1, fun i a x ha hx => (h.2 i a x ha hx).fits⟩

theorem recordRun_bad (eb : Bool) (s : Schema) (h : SchemaOk s) (r : Option (PRecord V)) (hb : IsBad s r)
    (hc : ∀ x, r = some x → NoClash x) : (recordRun eb s r).2 = badInstance eb := by
  cases r with
  | none => rfl
  | some r => exact (recordRun_out eb s h r (hc r rfl)).2 (hb r rfl)

theorem conforming_cons_good {s : Schema} {r : PRecord V} (rs : List (Option (PRecord V))) (h : Conforms s r) :
    conforming s (some r :: rs) = r :: conforming s rs := by
  simp [conforming, h]

theorem conforming_cons_bad {s : Schema} {r : Option (PRecord V)} (rs : List (Option (PRecord V))) (h : IsBad s r) :
    conforming s (r :: rs) = conforming s rs := by
  cases r with
  | none => simp [conforming]
  | some r => simp [conforming, h r rfl]

theorem not_isBad {s : Schema} {r : Option (PRecord V)} (h : ¬ IsBad s r) : ∃ x, r = some x ∧ Conforms s x := by
  unfold IsBad at h
  simp only [Classical.not_forall, Classical.not_not] at h
  obtain ⟨x, hx, hc⟩ := h
  exact ⟨x, hx, hc⟩

theorem protoSerial_ok (zero : V) (h : BadHandling) (s : Schema) (hs : SchemaOk s) (size : Nat) : ∀ (rs : List (Option (PRecord V)))
    (gs : List (PRecord V)) (ss : List (Slot V)) (dirty : Prop), Goods s gs → Holds zero dirty s size gs ss →
    gs.length + rs.length ≤ size →
    (∀ r ∈ rs, (∀ x, r = some x → NoClash x) ∧ (IsBad s r → (h = .pad ∨ h = .padWarn) ∧ NoSparse s r)) →
    ∃ ss', protoSerial h s rs gs.length ss = .ok (some (gs.length + (conforming s rs).length), ss') ∧
      Holds zero ((rs = [] ∧ dirty) ∨ LastBad s rs) s size (gs ++ conforming s rs) ss'
  | [], gs, ss, dirty, _, hss, _, _ => ⟨ss, by simp [protoSerial, conforming],
      by
        rw [show conforming s ([] : List (Option (PRecord V))) = [] from rfl, List.append_nil]
        exact hss.mono fun h => Or.inl ⟨rfl, h⟩⟩
  | r :: rs, gs, ss, dirty, hg, hss, hl, hr => by
    simp only [List.length_cons] at hl
    have hr' := fun x hx => hr x (List.mem_cons_of_mem _ hx)
    have hr0 := hr r (by simp)
    by_cases hb : IsBad s r
    · have hh := (hr0.2 hb).1
      have hne : (h == .error) = false := by rcases hh with rfl | rfl <;> rfl
      obtain ⟨ss', h1, h2⟩ := step_harmless zero dirty (h == .error) s hs size gs ss hg hss (by omega) r (hr0.2 hb).2
      have hbad := recordRun_bad (h == .error) s hs r hb hr0.1
      have hns : ¬ (h = .skip ∨ h = .skipWarn) := by rcases hh with rfl | rfl <;> simp
      obtain ⟨ss'', i1, i2⟩ := protoSerial_ok zero h s hs size rs gs ss' True hg h2 (by omega) hr'
      rw [conforming_cons_bad rs hb]
      refine ⟨ss'', ?_, i2.mono (lastBad_cons_bad hb)⟩
      simp only [protoSerial, h1, hbad]
      simp only [badInstance, hne, Bool.false_eq_true, if_false]
      rw [if_neg hns, if_pos hh, i1]
    · obtain ⟨x, rfl, hx⟩ := not_isBad hb
      obtain ⟨ss', h1, h2⟩ := step_good zero dirty (h == .error) s hs size gs ss hg hss (by omega) x (hr0.1 x rfl) hx
      have hgood := (recordRun_out (h == .error) s hs x (hr0.1 x rfl)).1 hx
      obtain ⟨ss'', i1, i2⟩ := protoSerial_ok zero h s hs size rs (gs ++ [x]) ss' False
        (by
          intro g hgm
          simp only [List.mem_append, List.mem_singleton] at hgm
          rcases hgm with hgm | rfl
          · exact hg g hgm
          · exact ⟨hr0.1 _ rfl, hx⟩) h2 (by simp; omega) hr'
      rw [conforming_cons_good rs hx]
      refine ⟨ss'', ?_, by
        rw [List.append_assoc] at i2
        exact i2.mono lastBad_cons_good⟩
      simp only [protoSerial, h1, hgood]
      simp only [List.length_append, List.length_cons, List.length_nil, Nat.zero_add] at i1
      rw [i1]
      simp only [List.length_cons]
      congr 3
      omega

theorem protoSerial_bad (h : BadHandling) (s : Schema) (hs : SchemaOk s) (size : Nat) : ∀ (rs : List (Option (PRecord V)))
    (row : Nat) (ss : List (Slot V)), SlotsAll (fun _ a x => SlotFits a size x) s ss → row + rs.length ≤ size →
    (∀ r ∈ rs, ∀ x, r = some x → NoClash x) → (∃ r ∈ rs, IsBad s r) →
    (h = .error → protoSerial h s rs row ss = .err .invalidInstance) ∧
    (h = .skip ∨ h = .skipWarn → ∃ ss', protoSerial h s rs row ss = .ok (none, ss'))
  | [], _, _, _, _, _, ⟨r, hr, _⟩ => by simp at hr
  | r :: rs, row, ss, hss, hl, hc, hb => by
    simp only [List.length_cons] at hl
    obtain ⟨ss', h1, h2⟩ := step_safe (h == .error) s hs size row ss hss (by omega) r
    by_cases hbr : IsBad s r
    · have hbad := recordRun_bad (h == .error) s hs r hbr (hc r (by simp))
      constructor
      · rintro rfl
        simp only [protoSerial, h1, hbad]
        rfl
      · intro hh
        have hne : (h == .error) = false := by rcases hh with rfl | rfl <;> rfl
        refine ⟨ss', ?_⟩
        simp only [protoSerial, h1, hbad]
        simp only [badInstance, hne, Bool.false_eq_true, if_false]
        rw [if_pos hh]
    · obtain ⟨x, rfl, hx⟩ := not_isBad hbr
      have hgood := (recordRun_out (h == .error) s hs x (hc _ (by simp) x rfl)).1 hx
      have hb' : ∃ r ∈ rs, IsBad s r := by
        obtain ⟨q, hq, hq'⟩ := hb
        simp only [List.mem_cons] at hq
        rcases hq with rfl | hq
        · exact absurd hq' hbr
        · exact ⟨q, hq, hq'⟩
      have ih := protoSerial_bad h s hs size rs (row + 1) ss' h2 (by omega) (fun r hr => hc r (by simp [hr])) hb'
      simp only [protoSerial, h1, hgood]
      exact ih

theorem recordRun_res (eb : Bool) (s : Schema) (h : SchemaOk s) (r : Option (PRecord V)) :
    (recordRun eb s r).2 = .ok true ∨ (recordRun eb s r).2 = badInstance eb := by
  cases r with
  | none => exact Or.inr rfl
  | some r =>
    obtain ⟨h1, h2⟩ := featuresRun_out eb s h r.entries
    rcases hf : featuresRun eb s r.entries with ⟨ws, o⟩
    rw [hf] at h1 h2
    simp only at h1 h2
    by_cases ha : AllFit s r.entries
    · have := h1 ha
      subst this
      simp only [recordRun, hf]
      split
      · exact Or.inl rfl
      · exact Or.inr rfl
    · have := h2 ha
      subst this
      simp only [recordRun, hf]
      right
      unfold badInstance
      cases eb <;> rfl

theorem protoSerial_safe (h : BadHandling) (s : Schema) (hs : SchemaOk s) (size : Nat) : ∀ (rs : List (Option (PRecord V)))
    (row : Nat) (ss : List (Slot V)), SlotsAll (fun _ a x => SlotFits a size x) s ss → row + rs.length ≤ size →
    (∃ o ss', protoSerial h s rs row ss = .ok (o, ss') ∧ SlotsAll (fun _ a x => SlotFits a size x) s ss') ∨
    (h = .error ∧ protoSerial h s rs row ss = .err .invalidInstance)
  | [], row, ss, hss, _ => Or.inl ⟨_, ss, rfl, hss⟩
  | r :: rs, row, ss, hss, hl => by
    simp only [List.length_cons] at hl
    obtain ⟨ss', h1, h2⟩ := step_safe (h == .error) s hs size row ss hss (by omega) r
    rcases recordRun_res (h == .error) s hs r with hg | hb
    · have ih := protoSerial_safe h s hs size rs (row + 1) ss' h2 (by omega)
      simp only [protoSerial, h1, hg]
      exact ih
    · have ih := protoSerial_safe h s hs size rs row ss' h2 (by omega)
      simp only [protoSerial, h1, hb]
      cases h with
      | error => right; exact ⟨rfl, rfl⟩
      | skip => left; exact ⟨none, ss', rfl, h2⟩
      | skipWarn => left; exact ⟨none, ss', rfl, h2⟩
      | pad => exact ih
      | padWarn => exact ih

/-! ## Setting up and building -/

theorem stridesFit_set (a : Attr) (ha : AttrOk a a.shape.tail) (size : Nat) :
    a.shape.set 0 size = size :: a.shape.tail ∧ StridesFit (size :: a.shape.tail) := by
  obtain ⟨b, hb⟩ := ha.shape
  have hf := ha.fit
  constructor
  · rw [hb]; rfl
  · rw [hb] at hf
    generalize a.shape.tail = ds at hf ⊢
    cases ds with
    | nil => trivial
    | cons d ds => exact hf

theorem denseTensor_full (dims : List Nat) (n : Nat) (hd : dims ≠ []) (hf : StridesFit dims) (hn : numElements dims = n)
    (hlt : n < 2 ^ 64) : ∃ t, denseTensor dims [] n = .ok t := by
  obtain ⟨r, hr, hm⟩ := lastIndex_rowMajor dims 0 hf hd
  have hds := defaultStrides_rowMajor dims hf
  have hm' : (r + 1) % 2 ^ 64 = numElements dims := by
    rw [hm, Nat.zero_add, Nat.mod_eq_of_lt (by omega)]
  unfold denseTensor tensorStrides
  simp only [List.isEmpty_nil, if_true, hds, validateDataSize]
  rw [if_neg (by simpa using hd)]
  simp only [hr, hm', hn]
  rw [if_neg (by omega)]
  exact ⟨_, rfl⟩

theorem initSlot_ok (zero : V) (size : Nat) (a : Attr) (ha : AttrOk a a.shape.tail)
    (hsz : a.sparse = false → size * numElements a.shape.tail < 2 ^ 64) :
    ∃ x, initSlot zero size a = .ok x ∧ SlotHolds zero False a size [] x := by
  unfold initSlot SlotHolds
  cases hsp : a.sparse with
  | true =>
    simp only [if_true]
    refine ⟨_, rfl, ?_⟩
    simp only [CooBuilder.new, cooEntries, columns, List.length_nil, List.zipIdx_nil, List.flatMap_nil, List.map_nil,
      Slot.sparse.injEq, CooBuilder.mk.injEq, true_and]
    rw [List.map_const']
    simp
  | false =>
    simp only [Bool.false_eq_true, if_false]
    obtain ⟨b, hb⟩ := ha.shape
    have hst : a.strides = ((numElements a.shape.tail : Nat) : Int) :: rowMajor a.shape.tail := by
      rw [ha.strides, hb]; rfl
    obtain ⟨e1, e2⟩ := stridesFit_set a ha size
    have hlt := hsz hsp
    have h1 : asSize ((numElements a.shape.tail : Nat) : Int) = numElements a.shape.tail :=
      asSize_nat _ (Nat.lt_trans ha.size (by decide))
    obtain ⟨t, ht⟩ := denseTensor_full (size :: a.shape.tail) (size * numElements a.shape.tail) (by simp) e2 rfl hlt
    simp only [hst, h1, e1, Nat.mod_eq_of_lt hlt, ht]
    refine ⟨_, rfl, _, rfl, by simp, by simp, by simp, ?_⟩
    intro j x _ hx
    exact (List.mem_replicate.1 (List.mem_of_getElem? hx)).2

theorem initSlots_ok (zero : V) (size : Nat) : ∀ (as : List Attr), (∀ a ∈ as, AttrOk a a.shape.tail) →
    (∀ a ∈ as, a.sparse = false → size * numElements a.shape.tail < 2 ^ 64) →
    ∃ ss, initSlots zero size as = .ok ss ∧ ss.length = as.length ∧
      ∀ (i : Nat) (a : Attr) (x : Slot V), as[i]? = some a → ss[i]? = some x → SlotHolds zero False a size [] x
  | [], _, _ => ⟨[], rfl, rfl, by simp⟩
  | a :: as, h1, h2 => by
    obtain ⟨x, hx, hx'⟩ := initSlot_ok zero size a (h1 a (by simp)) (h2 a (by simp))
    obtain ⟨ss, i1, i2, i3⟩ := initSlots_ok zero size as (fun b hb => h1 b (by simp [hb])) (fun b hb => h2 b (by simp [hb]))
    refine ⟨x :: ss, by simp only [initSlots, hx, i1], by simp [i2], ?_⟩
    intro i b y hb hy
    cases i with
    | zero =>
      simp only [List.getElem?_cons_zero, Option.some.injEq] at hb hy
      subst hb hy
      exact hx'
    | succ i =>
      simp only [List.getElem?_cons_succ] at hb hy
      exact i3 i b y hb hy

theorem columns_lengths (n : Nat) (es : List (List Nat × V)) : (columns n es).map List.length = List.replicate n es.length := by
  simp [columns, Function.comp_def, List.map_const']

theorem build_holds (zero : V) (dirty : Prop) (a : Attr) (ha : AttrOk a a.shape.tail) (size : Nat) (rows : List (PTensor V)) (x : Slot V)
    (h : SlotHolds zero dirty a size rows x) : ∃ t, x.build = .ok t ∧ FeatureHolds zero dirty a size rows t := by
  unfold SlotHolds at h
  unfold FeatureHolds
  cases hsp : a.sparse with
  | true =>
    rw [hsp] at h
    simp only [if_true] at h ⊢
    subst h
    obtain ⟨e1, e2⟩ := stridesFit_set a ha size
    obtain ⟨b, hb⟩ := ha.shape
    have hlen : (size :: a.shape.tail).length = a.shape.length := by
      have := congrArg List.length hb
      simp only [List.length_cons] at this ⊢
      omega
    refine ⟨_, ?_, rfl⟩
    simp only [Slot.build, CooBuilder.build, e1, columns_lengths, cooTensor, tensorStrides, List.isEmpty_nil, if_true,
      defaultStrides_rowMajor _ e2]
    rw [if_neg (by simpa using hlen), if_neg (by simp)]
  | false =>
    rw [hsp] at h
    simp only [Bool.false_eq_true, if_false] at h ⊢
    obtain ⟨data, rfl, h1, h2, _, hz⟩ := h
    exact ⟨_, rfl, data, rfl, h1, h2, hz⟩

theorem build_safe (a : Attr) (ha : AttrOk a a.shape.tail) (size : Nat) (x : Slot V) (h : SlotFits a size x) :
    (∃ t, x.build = .ok t) ∨ x.build = .err .invalidArgument := by
  unfold SlotFits at h
  cases hsp : a.sparse with
  | true =>
    rw [hsp] at h
    simp only [if_true] at h
    obtain ⟨b, rfl, h1, h2, h3, h4⟩ := h
    obtain ⟨e1, e2⟩ := stridesFit_set a ha size
    simp only [Slot.build, CooBuilder.build, h1, h3, e1, cooTensor, tensorStrides, List.isEmpty_nil, if_true,
      defaultStrides_rowMajor _ e2]
    by_cases hl : (size :: a.shape.tail).length ≠ (b.coords.map List.length).length
    · rw [if_pos hl]; exact Or.inr rfl
    · rw [if_neg hl]
      by_cases hc : (b.coords.map List.length).any (fun c => c ≠ b.data.length)
      · rw [if_pos hc]; exact Or.inr rfl
      · rw [if_neg hc]; exact Or.inl ⟨_, rfl⟩
  | false =>
    rw [hsp] at h
    simp only [Bool.false_eq_true, if_false] at h
    obtain ⟨data, rfl, _⟩ := h
    exact Or.inl ⟨_, rfl⟩

theorem buildAll_ok : ∀ (ss : List (Slot V)), (∀ x ∈ ss, ∃ t, x.build = .ok t) →
    ∃ ts, buildAll ss = .ok ts ∧ ts.length = ss.length ∧ ∀ (i : Nat) (x : Slot V), ss[i]? = some x → ∃ t, ts[i]? = some t ∧ x.build = .ok t
  | [], _ => ⟨[], rfl, rfl, by simp⟩
  | x :: ss, h => by
    obtain ⟨t, ht⟩ := h x (by simp)
    obtain ⟨ts, i1, i2, i3⟩ := buildAll_ok ss (fun y hy => h y (by simp [hy]))
    refine ⟨t :: ts, by simp only [buildAll, ht, i1], by simp [i2], ?_⟩
    intro i y hy
    cases i with
    | zero =>
      simp only [List.getElem?_cons_zero, Option.some.injEq] at hy
      subst hy
      exact ⟨t, by simp, ht⟩
    | succ i =>
      simp only [List.getElem?_cons_succ] at hy ⊢
      exact i3 i y hy

theorem buildAll_safe : ∀ (ss : List (Slot V)), (∀ x ∈ ss, (∃ t, x.build = .ok t) ∨ x.build = .err .invalidArgument) →
    (∃ ts, buildAll ss = .ok ts ∧ ts.length = ss.length) ∨ buildAll ss = .err .invalidArgument
  | [], _ => Or.inl ⟨[], rfl, rfl⟩
  | x :: ss, h => by
    rcases h x (by simp) with ⟨t, ht⟩ | ht
    · rcases buildAll_safe ss (fun y hy => h y (by simp [hy])) with ⟨ts, i1, i2⟩ | i1
      · exact Or.inl ⟨t :: ts, by simp only [buildAll, ht, i1], by simp [i2]⟩
      · exact Or.inr (by simp only [buildAll, ht, i1])
    · exact Or.inr (by simp only [buildAll, ht])

/-- The tensors of a batch with the given good instances. -/
theorem Holds.build {zero : V} {dirty : Prop} {s : Schema} (hs : SchemaOk s) {size : Nat} {gs : List (PRecord V)}
    {ss : List (Slot V)} (h : Holds zero dirty s size gs ss) : ∃ ts, buildAll ss = .ok ts ∧ ts.length = s.attrs.length ∧
      ∀ (i : Nat) (a : Attr), s.attrs[i]? = some a → ∃ t, ts[i]? = some t ∧ FeatureHolds zero dirty a size (rowsOf a gs) t := by
  have key : ∀ (i : Nat) (x : Slot V), ss[i]? = some x → ∃ a, s.attrs[i]? = some a ∧ ∃ t, x.build = .ok t ∧ FeatureHolds zero dirty a size (rowsOf a gs) t := by
    intro i x hx
    have hlt : i < s.attrs.length := by rw [← h.1]; exact (List.getElem?_eq_some_iff.1 hx).1
    have ha : s.attrs[i]? = some s.attrs[i] := List.getElem?_eq_getElem hlt
    exact ⟨_, ha, build_holds zero dirty _ (hs.attrs _ (List.mem_of_getElem? ha)) size _ x (h.2 i _ x ha hx)⟩
  obtain ⟨ts, h1, h2, h3⟩ := buildAll_ok ss (by
    intro x hx
    obtain ⟨i, hi⟩ := List.mem_iff_getElem?.1 hx
    obtain ⟨_, _, t, ht, _⟩ := key i x hi
    exact ⟨t, ht⟩)
  refine ⟨ts, h1, h2.trans h.1, fun i a ha => ?_⟩
  have hlt : i < ss.length := by rw [h.1]; exact (List.getElem?_eq_some_iff.1 ha).1
  have hx : ss[i]? = some ss[i] := List.getElem?_eq_getElem hlt
  obtain ⟨t, ht, hb⟩ := h3 i _ hx
  obtain ⟨a', ha', t', ht', hf⟩ := key i _ hx
  rw [ha] at ha'
  simp only [Option.some.injEq] at ha'
  subst ha'
  rw [hb] at ht'
  simp only [Res.ok.injEq] at ht'
  subst ht'
  exact ⟨t, ht, hf⟩

end Mlio

namespace Mlio
open Spec

variable {V : Type}

/-! ## The schema of a message -/

/-- The attribute of a tensor. -/
def attrOf (batch : Nat) (n : Bytes) (dt : DataType) (t : PTensor V) : Attr :=
  ⟨n, dt, batch :: dimsOf t, rowMajor (batch :: dimsOf t), isSparse t⟩

theorem dimsOf_ne (t : PTensor V) : dimsOf t ≠ [] := by
  unfold dimsOf
  split
  · simp
  · assumption

theorem stridesFit_head {b c : Nat} {ds : List Nat} (h : StridesFit (b :: ds)) : StridesFit (c :: ds) := by
  cases ds with
  | nil => trivial
  | cons d ds => exact h

theorem protoAttr_ok (batch : Nat) (n : Bytes) (dt : DataType) (t : PTensor V) (ht : TensorOk t) :
    protoAttr batch n (.tensor dt t) = .ok (attrOf batch n dt t) := by
  have hm : ∀ sp, makeAttr n dt (batch :: dimsOf t) [] sp = .ok ⟨n, dt, batch :: dimsOf t, rowMajor (batch :: dimsOf t), sp⟩ := by
    intro sp
    unfold makeAttr tensorStrides
    simp only [List.isEmpty_nil, if_true, defaultStrides_rowMajor _ (stridesFit_head (c := batch) ht.fit)]
  unfold protoAttr attrOf isSparse
  rcases hk : t.keys with _ | ⟨k, ks⟩
  · simp only [List.isEmpty_nil, if_true]
    rcases hs : t.shape with _ | ⟨d, ds⟩
    · have : dimsOf t = [t.values.length] := by simp [dimsOf, hs]
      rw [this] at hm
      simp only [List.isEmpty_nil, if_true, hm, this, hk, Bool.not_true, Bool.and_false]
    · have : dimsOf t = d :: ds := by simp [dimsOf, hs]
      rw [this] at hm
      simp only [List.isEmpty_cons, Bool.false_eq_true, if_false, hm, this, hk, List.isEmpty_nil, if_true, Bool.not_false, Bool.and_true]
  · have hsp := (ht.sparse (Or.inl (by simp [hk]))).1
    have : dimsOf t = t.shape := by simp [dimsOf, hsp]
    rw [this] at hm
    simp only [hk, List.isEmpty_cons, Bool.false_eq_true, if_false, this]
    rw [if_neg (by simpa using hsp), hm]

theorem attrOf_ok (batch : Nat) (n : Bytes) (dt : DataType) (t : PTensor V) (ht : TensorOk t) :
    AttrOk (attrOf batch n dt t) (attrOf batch n dt t).shape.tail ∧ TensorFits (attrOf batch n dt t) t := by
  refine ⟨⟨⟨batch, rfl⟩, rfl, dimsOf_ne t, stridesFit_head (c := batch) ht.fit, ht.size, ?_⟩, ?_, ?_⟩
  · intro hsp
    have hsp' := ht.sparse ((isSparse_iff t).1 hsp)
    have : dimsOf t = t.shape := by simp [dimsOf, hsp'.1]
    simp only [attrOf, List.tail_cons, this]
    exact hsp'.2.1
  · simp only [attrOf, List.tail_cons]
    unfold ShapeFits dimsOf
    by_cases hs : t.shape = []
    · right; simp [hs]
    · left; simp [hs]
  · cases hsp : isSparse t with
    | true =>
      have h1 := (isSparse_iff t).1 hsp
      have hsp' := ht.sparse h1
      have : dimsOf t = t.shape := by simp [dimsOf, hsp'.1]
      simp only [attrOf, List.tail_cons, hsp, if_true, this]
      exact ⟨h1, hsp'.2.2⟩
    | false =>
      have h1 : ¬ Sparse t := fun h => by
        have := (isSparse_iff t).2 h
        rw [hsp] at this
        cases this
      simp only [attrOf, List.tail_cons, hsp, Bool.false_eq_true, if_false]
      exact ⟨h1, ht.dense h1⟩

/-- Every value of the entries is a tensor that makes sense. -/
def EntriesOk (es : List (Bytes × PValue V)) : Prop := ∀ e ∈ es, ∃ dt t, e.2 = .tensor dt t ∧ TensorOk t

theorem protoAttrs_ok (batch : Nat) : ∀ (es : List (Bytes × PValue V)), EntriesOk es →
    ∃ as, protoAttrs batch es = .ok as ∧ as.map Attr.name = es.map Prod.fst ∧
      (∀ a ∈ as, AttrOk a a.shape.tail ∧ ∃ v, (a.name, v) ∈ es ∧ ValueFits a v)
  | [], _ => ⟨[], rfl, rfl, by simp⟩
  | (n, v) :: es, h => by
    obtain ⟨dt, t, hv, ht⟩ := h (n, v) (by simp)
    simp only at hv
    subst hv
    obtain ⟨as, i1, i2, i3⟩ := protoAttrs_ok batch es (fun e he => h e (by simp [he]))
    refine ⟨attrOf batch n dt t :: as, ?_, ?_, ?_⟩
    · simp only [protoAttrs, protoAttr_ok batch n dt t ht, i1]
    · simp [attrOf, i2]
    · intro a ha
      simp only [List.mem_cons] at ha
      rcases ha with rfl | ha
      · obtain ⟨h1, h2⟩ := attrOf_ok batch n dt t ht
        exact ⟨h1, _, by simp only [attrOf, List.mem_cons, true_or], t, rfl, h2⟩
      · obtain ⟨h1, v, h2, h3⟩ := i3 a ha
        exact ⟨h1, v, by simp [h2], h3⟩

theorem protoSchema_ok (batch : Nat) (r : PRecord V) (hc : NoClash r) (h : EntriesOk r.entries) :
    ∃ s, protoSchema batch (some (some r)) = .ok (some s) ∧ SchemaOk s ∧ Conforms s r ∧
      s.attrs.map Attr.name = r.entries.map Prod.fst := by
  obtain ⟨as, h1, h2, h3⟩ := protoAttrs_ok batch r.entries h
  have hnd : (as.map Attr.name).Nodup := by rw [h2]; exact hc
  rcases schemaLoop_spec as 0 [] with ⟨he, hn⟩ | ⟨m, he, _⟩
  · exact absurd ⟨hnd, by simp [List.lookup]⟩ hn
  · have hm : makeSchema as = .ok ⟨as, m⟩ := by simp only [makeSchema, he]
    refine ⟨⟨as, m⟩, by simp only [protoSchema, h1, hm], ⟨hm, fun a ha => (h3 a ha).1⟩, ⟨fun a ha => (h3 a ha).2, ?_⟩, h2⟩
    intro e he'
    show e.1 ∈ as.map Attr.name
    rw [h2]
    exact List.mem_map.2 ⟨e, he', rfl⟩

end Mlio
