import Verif.Proofs.ProtoBatch
import Verif.Proofs.Image
import Verif.Spec.Reports

/-! # Lemmas about the messages -/

namespace Mlio
open Spec

variable {V : Type}

theorem schema_keysOk {s : Schema} (h : SchemaOk s) {a : Attr} (ha : a ∈ s.attrs) (hsp : a.sparse = true) (ks : List Nat) :
    ((∀ k ∈ ks, k < numElements a.shape.tail) → keysOk a.shape a.strides ks = .ok true) ∧
    ((¬ ∀ k ∈ ks, k < numElements a.shape.tail) → keysOk a.shape a.strides ks = .ok false) := by
  have hok := h.attrs a ha
  obtain ⟨b, hb⟩ := hok.shape
  have hfit := hok.fit
  rw [hb] at hfit
  have := keysOk_spec a.shape.tail b hok.rank hfit (hok.pos hsp) ks
  rw [← hb, ← hok.strides] at this
  exact this

theorem schema_getIndex {s : Schema} (h : SchemaOk s) (n : Bytes) :
    (s.getIndex n = none ∧ ∀ a, ¬ HasAttr s n a) ∨ ∃ i a, s.getIndex n = some i ∧ s.attrs[i]? = some a ∧ a.name = n ∧ a ∈ s.attrs := by
  by_cases hn : n ∈ s.attrs.map Attr.name
  · obtain ⟨a, ha, rfl⟩ := List.mem_map.1 hn
    obtain ⟨i, hi⟩ := List.mem_iff_getElem?.1 ha
    exact Or.inr ⟨i, a, h.index.2.1 i a hi, hi, rfl, ha⟩
  · exact Or.inl ⟨h.index.2.2 n hn, fun a ha => hn (List.mem_map.2 ⟨a, ha.1, ha.2⟩)⟩

theorem hasAttr_unique {s : Schema} (h : SchemaOk s) {n : Bytes} {a b : Attr} (ha : HasAttr s n a) (hb : HasAttr s n b) : a = b := by
  obtain ⟨i, hi⟩ := List.mem_iff_getElem?.1 ha.1
  obtain ⟨j, hj⟩ := List.mem_iff_getElem?.1 hb.1
  have e1 := h.index.2.1 i a hi
  have e2 := h.index.2.1 j b hj
  rw [ha.2] at e1
  rw [hb.2, e1] at e2
  cases e2
  rw [hi] at hj
  cases hj
  rfl

/-- There is a message about a feature exactly if it is bad. -/
theorem featureFault_run {s : Schema} (h : SchemaOk s) (n : Bytes) (v : PValue V) :
    (featureFault s n v = none ∧ ∀ eb, (featureRun eb s n v).2 = .ok true) ∨
    (∃ f, featureFault s n v = some f ∧ ∀ eb, (featureRun eb s n v).2 = badInstance eb) := by
  unfold featureFault featureRun
  rcases schema_getIndex h n with ⟨e, _⟩ | ⟨i, a, e, hi, rfl, ha⟩
  · rw [e]; exact Or.inr ⟨_, rfl, fun _ => by first | rfl | trivial⟩
  · simp only [e, hi]
    cases v with
    | bytes => exact Or.inr ⟨_, rfl, fun _ => by first | rfl | trivial⟩
    | unset => exact Or.inr ⟨_, rfl, fun _ => by first | rfl | trivial⟩
    | tensor dt t =>
      simp only
      by_cases h1 : a.dt ≠ dt
      · simp only [if_pos h1]; exact Or.inr ⟨_, rfl, fun _ => by first | rfl | trivial⟩
      simp only [if_neg h1]
      by_cases h2 : isSparse t ≠ a.sparse
      · simp only [if_pos h2]
        refine Or.inr ?_
        split
        · exact ⟨_, rfl, fun _ => by first | rfl | trivial⟩
        · exact ⟨_, rfl, fun _ => by first | rfl | trivial⟩
      simp only [if_neg h2]
      cases h3 : shapeEquals a.shape t with
      | false => simp only [Bool.not_false, if_true]; exact Or.inr ⟨_, rfl, fun _ => by first | rfl | trivial⟩
      | true =>
        simp only [Bool.not_true, Bool.false_eq_true, if_false]
        cases h4 : a.sparse with
        | true =>
          simp only [if_true]
          by_cases h5 : t.keys.length ≠ t.values.length
          · simp only [if_pos h5]; exact Or.inr ⟨_, rfl, fun _ => by first | rfl | trivial⟩
          simp only [if_neg h5]
          by_cases h6 : ∀ k ∈ t.keys, k < numElements a.shape.tail
          · rw [(schema_keysOk h ha h4 t.keys).1 h6]; exact Or.inl ⟨by first | rfl | trivial, fun _ => by first | rfl | trivial⟩
          · rw [(schema_keysOk h ha h4 t.keys).2 h6]; exact Or.inr ⟨_, rfl, fun _ => by first | rfl | trivial⟩
        | false =>
          simp only [Bool.false_eq_true, if_false]
          by_cases h5 : a.strides.head? ≠ some (t.values.length : Int)
          · simp only [if_pos h5]; exact Or.inr ⟨_, rfl, fun _ => by first | rfl | trivial⟩
          · simp only [if_neg h5]; exact Or.inl ⟨by first | rfl | trivial, fun _ => by first | rfl | trivial⟩

theorem featuresFault_run {s : Schema} (h : SchemaOk s) : ∀ (es : List (Bytes × PValue V)),
    (featuresFault s es = none ∧ ∀ eb, (featuresRun eb s es).2 = .ok true) ∨
    (∃ f, featuresFault s es = some f ∧ ∀ eb, (featuresRun eb s es).2 = badInstance eb)
  | [] => Or.inl ⟨rfl, fun _ => rfl⟩
  | (n, v) :: es => by
    rcases featureFault_run h n v with ⟨e, hr⟩ | ⟨f, e, hr⟩
    · rcases featuresFault_run h es with ⟨e', hr'⟩ | ⟨f, e', hr'⟩
      · left
        refine ⟨by simp only [featuresFault, e, e'], fun eb => ?_⟩
        rcases hf : featureRun eb s n v with ⟨w, o⟩
        have := hr eb
        rw [hf] at this
        simp only at this
        subst this
        simp only [featuresRun, hf, hr' eb]
      · right
        refine ⟨f, by simp only [featuresFault, e, e'], fun eb => ?_⟩
        rcases hf : featureRun eb s n v with ⟨w, o⟩
        have := hr eb
        rw [hf] at this
        simp only at this
        subst this
        simp only [featuresRun, hf, hr' eb]
    · right
      refine ⟨f, by simp only [featuresFault, e], fun eb => ?_⟩
      rcases hf : featureRun eb s n v with ⟨w, o⟩
      have := hr eb
      rw [hf] at this
      simp only at this
      subst this
      simp only [featuresRun, hf]
      unfold badInstance
      cases eb <;> rfl

/-- There is a message about an instance exactly if it is bad. -/
theorem recordFault_run {s : Schema} (h : SchemaOk s) (r : Option (PRecord V)) :
    (recordFault s r = none ∧ ∀ eb, (recordRun eb s r).2 = .ok true) ∨
    (∃ f, recordFault s r = some f ∧ ∀ eb, (recordRun eb s r).2 = badInstance eb) := by
  cases r with
  | none => exact Or.inr ⟨_, rfl, fun _ => rfl⟩
  | some r =>
    rcases featuresFault_run h r.entries with ⟨e, hr⟩ | ⟨f, e, hr⟩
    · by_cases hl : r.entries.length = s.attrs.length
      · left
        refine ⟨by simp only [recordFault, e, if_pos hl], fun eb => ?_⟩
        rcases hf : featuresRun eb s r.entries with ⟨w, o⟩
        have := hr eb
        rw [hf] at this
        simp only at this
        subst this
        simp only [recordRun, hf, if_pos hl]
      · right
        refine ⟨.features r.entries.length s.attrs.length, by simp only [recordFault, e, if_neg hl], fun eb => ?_⟩
        rcases hf : featuresRun eb s r.entries with ⟨w, o⟩
        have := hr eb
        rw [hf] at this
        simp only at this
        subst this
        simp only [recordRun, hf, if_neg hl]
    · right
      refine ⟨f, by simp only [recordFault, e], fun eb => ?_⟩
      rcases hf : featuresRun eb s r.entries with ⟨w, o⟩
      have := hr eb
      rw [hf] at this
      simp only at this
      subst this
      simp only [recordRun, hf]
      unfold badInstance
      cases eb <;> rfl

/-- A message about sparseness. -/
def ProtoFault.aboutSparseness : ProtoFault → Bool
  | .sparseNotDense _ => true
  | .denseNotSparse _ => true
  | _ => false

/-- What a message about a feature says is true, unless it is about sparseness. -/
theorem featureFault_true {s : Schema} (h : SchemaOk s) (r : PRecord V) (n : Bytes) (v : PValue V) (hm : (n, v) ∈ r.entries)
    (f : ProtoFault) (hf : featureFault s n v = some f) (hs : f.aboutSparseness = false) : Truthful s (some r) f := by
  have hfe : HasFeature (some r) n v := ⟨r, rfl, hm⟩
  unfold featureFault at hf
  rcases schema_getIndex h n with ⟨e, hno⟩ | ⟨i, a, e, hi, hn, ha⟩
  · rw [e] at hf
    cases hf
    exact ⟨⟨v, hfe⟩, hno⟩
  have hat : HasAttr s n a := ⟨ha, hn⟩
  obtain ⟨b, hb⟩ := (h.attrs a ha).shape
  simp only [e, hi, hn] at hf
  cases v with
  | bytes => cases hf; exact ⟨_, hfe, fun _ _ hx => by cases hx⟩
  | unset => cases hf; exact ⟨_, hfe, fun _ _ hx => by cases hx⟩
  | tensor dt t =>
    simp only at hf
    by_cases h1 : a.dt ≠ dt
    · rw [if_pos h1] at hf
      cases hf
      exact ⟨fun hx => h1 hx.symm, t, a, hfe, hat, rfl⟩
    rw [if_neg h1] at hf
    by_cases h2 : isSparse t ≠ a.sparse
    · rw [if_pos h2] at hf
      split at hf <;> cases hf <;> cases hs
    rw [if_neg h2] at hf
    cases h3 : shapeEquals a.shape t with
    | false =>
      simp only [h3, Bool.not_false, if_true, Option.some.injEq] at hf
      subst hf
      refine ⟨?_, dt, t, a, hfe, hat, ?_, rfl⟩
      · intro hx
        have : shapeEquals a.shape t = true := by
          rw [hb]
          refine (shapeEquals_iff b a.shape.tail (h.attrs a ha).rank t).2 ?_
          cases hsh : t.shape with
          | nil => rw [hsh] at hx; exact Or.inr ⟨hsh, hx.symm⟩
          | cons d ds => rw [hsh] at hx; exact Or.inl (by rw [hsh]; exact hx)
        rw [this] at h3
        cases h3
      · unfold dimsOf
        cases t.shape <;> simp
    | true =>
      simp only [h3, Bool.not_true, Bool.false_eq_true, if_false] at hf
      cases h4 : a.sparse with
      | true =>
        simp only [h4, if_true] at hf
        by_cases h5 : t.keys.length ≠ t.values.length
        · rw [if_pos h5] at hf
          cases hf
          exact ⟨h5, dt, t, hfe, rfl, rfl⟩
        rw [if_neg h5] at hf
        by_cases h6 : ∀ k ∈ t.keys, k < numElements a.shape.tail
        · rw [(schema_keysOk h ha h4 t.keys).1 h6] at hf; cases hf
        · rw [(schema_keysOk h ha h4 t.keys).2 h6] at hf
          cases hf
          refine ⟨dt, t, a, hfe, hat, ?_⟩
          apply Classical.byContradiction
          intro hno
          exact h6 fun k hk => by
            apply Classical.byContradiction
            intro hlt
            exact hno ⟨k, hk, by omega⟩
      | false =>
        simp only [h4, Bool.false_eq_true, if_false] at hf
        by_cases h5 : a.strides.head? ≠ some (t.values.length : Int)
        · rw [if_pos h5] at hf
          cases hf
          refine ⟨?_, dt, t, a, hfe, hat, rfl, rfl⟩
          intro hx
          apply h5
          rw [(h.attrs a ha).strides, hb]
          show some ((numElements a.shape.tail : Nat) : Int) = _
          rw [hx]
        · rw [if_neg h5] at hf; cases hf

theorem featuresFault_mem {s : Schema} : ∀ (es : List (Bytes × PValue V)) (f : ProtoFault), featuresFault s es = some f →
    ∃ n v, (n, v) ∈ es ∧ featureFault s n v = some f
  | [], _, h => by cases h
  | (n, v) :: es, f, h => by
    simp only [featuresFault] at h
    cases hf : featureFault s n v with
    | some g =>
      rw [hf] at h
      cases h
      exact ⟨n, v, by simp, hf⟩
    | none =>
      rw [hf] at h
      obtain ⟨n', v', hm, hf'⟩ := featuresFault_mem es f h
      exact ⟨n', v', by simp [hm], hf'⟩

/-- The fault of a message is that of a feature, or about the whole. -/
theorem recordFault_cases {s : Schema} {r : Option (PRecord V)} {f : ProtoFault} (h : recordFault s r = some f) :
    (r = none ∧ f = .corrupt) ∨ ∃ x, r = some x ∧ ((∃ n v, (n, v) ∈ x.entries ∧ featureFault s n v = some f) ∨
      (x.entries.length ≠ s.attrs.length ∧ f = .features x.entries.length s.attrs.length)) := by
  cases r with
  | none => cases h; exact Or.inl ⟨rfl, rfl⟩
  | some x =>
    simp only [recordFault] at h
    cases hf : featuresFault s x.entries with
    | some g =>
      rw [hf] at h
      cases h
      exact Or.inr ⟨x, rfl, Or.inl (featuresFault_mem _ _ hf)⟩
    | none =>
      rw [hf] at h
      by_cases hl : x.entries.length = s.attrs.length
      · simp only [if_pos hl] at h; cases h
      · simp only [if_neg hl, Option.some.injEq] at h
        exact Or.inr ⟨x, rfl, Or.inr ⟨hl, h.symm⟩⟩

/-- A message about sparseness says the opposite of what is the case. -/
theorem featureFault_sparse {s : Schema} (h : SchemaOk s) (n : Bytes) (v : PValue V) (f : ProtoFault) (hf : featureFault s n v = some f)
    (hs : f.aboutSparseness = true) :
    ∃ dt t a, v = .tensor dt t ∧ HasAttr s n a ∧
      ((f = .sparseNotDense n ∧ a.sparse = true ∧ ¬ Sparse t) ∨ (f = .denseNotSparse n ∧ a.sparse = false ∧ Sparse t)) := by
  unfold featureFault at hf
  rcases schema_getIndex h n with ⟨e, hno⟩ | ⟨i, a, e, hi, hn, ha⟩
  · rw [e] at hf
    cases hf
    cases hs
  have hat : HasAttr s n a := ⟨ha, hn⟩
  simp only [e, hi, hn] at hf
  cases v with
  | bytes => cases hf; cases hs
  | unset => cases hf; cases hs
  | tensor dt t =>
    refine ⟨dt, t, a, rfl, hat, ?_⟩
    simp only at hf
    by_cases h1 : a.dt ≠ dt
    · rw [if_pos h1] at hf; cases hf; cases hs
    rw [if_neg h1] at hf
    by_cases h2 : isSparse t ≠ a.sparse
    · rw [if_pos h2] at hf
      cases h4 : a.sparse with
      | true =>
        rw [h4] at hf h2
        cases hf
        exact Or.inl ⟨rfl, rfl, fun hx => h2 ((isSparse_iff t).2 hx)⟩
      | false =>
        rw [h4] at hf h2
        cases hf
        exact Or.inr ⟨rfl, rfl, (isSparse_iff t).1 (by cases hb : isSparse t <;> simp_all)⟩
    exfalso
    rw [if_neg h2] at hf
    split at hf
    · cases hf; cases hs
    · split at hf
      · split at hf
        · cases hf; cases hs
        · split at hf <;> cases hf
          cases hs
      · split at hf <;> cases hf
        cases hs

/-! ## Loops -/

/-- The instance is bad. -/
def protoBad (parse : Bytes → Option (PRecord V)) (s : Schema) (i : Inst) : Bool := (recordFault s (parse (i.bits.getD []))).isSome

/-- The message about an instance, if it is wanted. -/
def protoMsg (parse : Bytes → Option (PRecord V)) (warn : Bool) (s : Schema) (i : Inst) : List (Report ProtoFault) :=
  if warn then (recordFault s (parse (i.bits.getD []))).toList.map (.inst i.store i.index) else []

theorem protoReports_pad (parse : Bytes → Option (PRecord V)) (warn : Bool) (h : BadHandling) (hh : h = .pad ∨ h = .padWarn) {s : Schema}
    (hs : SchemaOk s) : ∀ (is : List Inst), protoReports parse warn h s is = is.flatMap (protoMsg parse warn s)
  | [] => rfl
  | i :: is => by
    have ih := protoReports_pad parse warn h hh hs is
    have hne : (h == BadHandling.error) = false := by rcases hh with rfl | rfl <;> rfl
    simp only [protoReports, List.flatMap_cons, hne]
    rcases recordFault_run hs (parse (i.bits.getD [])) with ⟨_, hr⟩ | ⟨f, _, hr⟩
    · rw [hr false]; simp only; rw [ih]; rfl
    · rw [hr false]; simp only [badInstance]; simp only [Bool.false_eq_true, if_false]; rw [if_pos hh, ih]; rfl

theorem protoReports_stops (parse : Bytes → Option (PRecord V)) (warn : Bool) (h : BadHandling) (hh : h ≠ .pad ∧ h ≠ .padWarn) {s : Schema}
    (hs : SchemaOk s) : ∀ (is : List Inst),
    protoReports parse warn h s is = (upToFirst (protoBad parse s) is).flatMap (protoMsg parse warn s)
  | [] => rfl
  | i :: is => by
    have ih := protoReports_stops parse warn h hh hs is
    simp only [protoReports]
    rcases recordFault_run hs (parse (i.bits.getD [])) with ⟨he, hr⟩ | ⟨f, he, hr⟩
    · have hb : protoBad parse s i = false := by simp [protoBad, he]
      rw [hr]
      simp only
      rw [ih]
      unfold upToFirst
      rw [List.findIdx_cons]
      simp only [hb, cond_false, List.take_succ_cons, List.flatMap_cons]
      rfl
    · have hb : protoBad parse s i = true := by simp [protoBad, he]
      rw [hr]
      unfold upToFirst
      rw [List.findIdx_cons]
      simp only [hb, cond_true, Nat.zero_add, List.take_succ_cons, List.take_zero, List.flatMap_cons, List.flatMap_nil]
      unfold badInstance
      cases (h == BadHandling.error)
      · simp only [Bool.false_eq_true, if_false]
        have hn : ¬ (h = .pad ∨ h = .padWarn) := fun hx => hx.elim hh.1 hh.2
        rw [if_neg hn]
        rfl
      · rfl

/-- How many instances the serial loop reads, and when it gives up. -/
theorem protoSerial_count (h : BadHandling) (s : Schema) (hs : SchemaOk s) (size : Nat) : ∀ (rs : List (Option (PRecord V)))
    (row : Nat) (ss : List (Slot V)), SlotsAll (fun _ a x => SlotFits a size x) s ss → row + rs.length ≤ size →
    ((h = .pad ∨ h = .padWarn) ∨ (∀ r ∈ rs, recordFault s r = none) →
      ∃ ss', protoSerial h s rs row ss = .ok (some (row + (rs.filter fun r => (recordFault s r).isNone).length), ss')) ∧
    ((h = .skip ∨ h = .skipWarn) → (∃ r ∈ rs, recordFault s r ≠ none) → ∃ ss', protoSerial h s rs row ss = .ok (none, ss')) ∧
    (h = .error → (∃ r ∈ rs, recordFault s r ≠ none) → protoSerial h s rs row ss = .err .invalidInstance)
  | [], row, ss, _, _ => ⟨fun _ => ⟨ss, by simp [protoSerial]⟩, fun _ ⟨r, hr, _⟩ => by simp at hr, fun _ ⟨r, hr, _⟩ => by simp at hr⟩
  | r :: rs, row, ss, hss, hl => by
    simp only [List.length_cons] at hl
    obtain ⟨ss', h1, h2⟩ := step_safe (h == .error) s hs size row ss hss (by omega) r
    rcases recordFault_run hs r with ⟨he, hr⟩ | ⟨f, he, hr⟩
    · obtain ⟨i1, i2, i3⟩ := protoSerial_count h s hs size rs (row + 1) ss' h2 (by omega)
      have hn : (recordFault s r).isNone = true := by rw [he]; rfl
      have hex : (∃ x ∈ r :: rs, recordFault s x ≠ none) → ∃ x ∈ rs, recordFault s x ≠ none := by
        rintro ⟨x, hx, hb⟩
        simp only [List.mem_cons] at hx
        rcases hx with rfl | hx
        · exact absurd he hb
        · exact ⟨x, hx, hb⟩
      simp only [protoSerial, h1, hr]
      refine ⟨fun hc => ?_, fun hh hb => i2 hh (hex hb), fun hh hb => i3 hh (hex hb)⟩
      obtain ⟨ss'', e⟩ := i1 (hc.imp id fun hx x hm => hx x (by simp [hm]))
      refine ⟨ss'', ?_⟩
      have hl' : (List.filter (fun r => (recordFault s r).isNone) (r :: rs)).length =
          (List.filter (fun r => (recordFault s r).isNone) rs).length + 1 := by
        simp only [List.filter_cons, hn, if_true, List.length_cons]
      rw [e, hl', show row + 1 + (List.filter (fun r => (recordFault s r).isNone) rs).length =
        row + ((List.filter (fun r => (recordFault s r).isNone) rs).length + 1) from by omega]
    · obtain ⟨i1, _, _⟩ := protoSerial_count h s hs size rs row ss' h2 (by omega)
      have hn : ¬ (recordFault s r).isNone = true := by rw [he]; simp
      simp only [protoSerial, h1, hr, badInstance]
      refine ⟨fun hc => ?_, fun hh _ => ?_, fun hh _ => ?_⟩
      · rcases hc with hp | hx
        · have e0 : (h == BadHandling.error) = false := by rcases hp with rfl | rfl <;> rfl
          obtain ⟨ss'', e⟩ := i1 (Or.inl hp)
          refine ⟨ss'', ?_⟩
          have hl' : (List.filter (fun r => (recordFault s r).isNone) (r :: rs)).length =
              (List.filter (fun r => (recordFault s r).isNone) rs).length := by
            simp only [List.filter_cons, hn]
            rfl
          rw [hl', e0]
          simp only [Bool.false_eq_true, if_false]
          rw [if_neg (by rcases hp with rfl | rfl <;> simp), if_pos hp, e]
        · have := hx r (by simp)
          rw [he] at this
          cases this
      · have e0 : (h == BadHandling.error) = false := by rcases hh with rfl | rfl <;> rfl
        rw [e0]
        simp only [Bool.false_eq_true, if_false]
        rw [if_pos hh]
        exact ⟨ss', rfl⟩
      · subst hh
        rfl

/-! ## Images -/

theorem imageFault_mode (cv : Cv) (p : ImgParams) (insts : List Bytes) (hs : Supported cv p insts) (inst : Bytes)
    (hi : inst ∈ insts) : imageFault cv p inst = modeFault cv p (modeFor p.channels) (imageBits p inst) := by
  unfold imageFault imageBits
  have hn : ¬ (p.recordio = true ∧ inst.length < 24) := fun hx => by have := hs.header hx.1 inst hi; omega
  rw [if_neg hn]
  simp only
  rcases hs.channels with h | h | h
  · rw [h, if_pos (by decide)]; rfl
  · rw [h, if_neg (by decide), if_pos (by decide)]; rfl
  · rw [h, if_neg (by decide), if_neg (by decide), if_pos (by decide)]; rfl

/-- There is a message about an image exactly if it is bad, and it says what is wrong. -/
theorem imageFault_spec (cv : Cv) (hcv : CvOk cv) (p : ImgParams) (insts : List Bytes) (hs : Supported cv p insts)
    (inst : Bytes) (hi : inst ∈ insts) :
    (GoodImage cv p inst → imageFault cv p inst = none) ∧
    (¬ GoodImage cv p inst → ∃ f, imageFault cv p inst = some f ∧ ImageWrong cv p inst f) := by
  rw [imageFault_mode cv p insts hs inst hi]
  unfold modeFault
  cases hd : cv.imdecode (modeFor p.channels) (imageBits p inst) with
  | none =>
    refine ⟨?_, fun _ => ⟨_, rfl, .decode hd⟩⟩
    rintro ⟨img, ⟨img', _, h, _⟩, _⟩
    have : some img' = none := h.symm.trans hd
    cases this
  | some img =>
    obtain ⟨out, e, ok, c, b, hp, hu⟩ := prepare_spec cv hcv p insts hs inst hi img hd
    have h4 : ¬ (modeFor p.channels = CvMode.unchanged ∧ img.chans ≠ 4) := by
      rintro ⟨hm, hx⟩
      rcases hs.channels with h | h | h
      · rw [h] at hm; cases hm
      · rw [h] at hm; cases hm
      · exact hx ((hs.images inst hi img hd).1 h).1
    have e1 : decodeImage cv p.bad (modeFor p.channels) (imageBits p inst) = .ok (some img) := by
      unfold decodeImage
      rw [hd]
      simp only
      rw [if_neg h4]
    rw [e1] at e
    simp only [Res.andThen] at e
    simp only
    rw [if_neg h4]
    cases hr : resizeStep cv p img with
    | err _ => rw [hr] at e; cases e
    | ub _ => rw [hr] at e; cases e
    | ok o =>
      cases o with
      | none => rw [hr] at e; cases e
      | some im2 =>
        rw [hr] at e
        simp only at e
        simp only [e, toInt32_small hs.height, toInt32_small hs.width]
        by_cases hsm : (out.rows : Int) < (p.height : Int) ∨ (out.cols : Int) < (p.width : Int)
        · rw [if_pos hsm]
          refine ⟨?_, fun _ => ⟨_, rfl, .small out hp (by omega)⟩⟩
          rintro ⟨img', hp', h1, h2⟩
          rw [hu img' hp'] at h1 h2
          omega
        · rw [if_neg hsm]
          refine ⟨fun _ => rfl, fun hg => absurd ⟨out, hp, by omega, by omega⟩ hg⟩

open Classical in
theorem imageReports_pad (cv : Cv) (hcv : CvOk cv) (p : ImgParams) (hb : p.bad = .pad ∨ p.bad = .padWarn) (all : List Bytes)
    (hs : Supported cv p all) : ∀ (is : List Inst), (∀ i ∈ is, i.bits.getD [] ∈ all) →
    imageReports cv p is = is.flatMap fun i =>
      if p.warn then (imageFault cv p (i.bits.getD [])).toList.map (.inst i.store i.index) else []
  | [], _ => rfl
  | i :: is, hm => by
    have ih := imageReports_pad cv hcv p hb all hs is (fun j hj => hm j (by simp [hj]))
    have hne : p.bad ≠ .error := by rcases hb with h | h <;> rw [h] <;> simp
    obtain ⟨k1, k2, _⟩ := decodeCore_spec cv hcv p all hs (i.bits.getD []) (hm i (by simp))
    simp only [imageReports, List.flatMap_cons]
    by_cases hg : GoodImage cv p (i.bits.getD [])
    · obtain ⟨img, hp, h1, h2⟩ := hg
      obtain ⟨y, x, _, _, e, _⟩ := k1 img hp h1 h2
      rw [e]
      simp only
      rw [ih]
    · rw [k2 hg hne]
      simp only
      rw [if_pos hb, ih]

open Classical in
theorem imageReports_stops (cv : Cv) (hcv : CvOk cv) (p : ImgParams) (hb : p.bad ≠ .pad ∧ p.bad ≠ .padWarn) (all : List Bytes)
    (hs : Supported cv p all) : ∀ (is : List Inst), (∀ i ∈ is, i.bits.getD [] ∈ all) →
    imageReports cv p is = (upToFirst (fun i => (imageFault cv p (i.bits.getD [])).isSome) is).flatMap fun i =>
      if p.warn then (imageFault cv p (i.bits.getD [])).toList.map (.inst i.store i.index) else []
  | [], _ => rfl
  | i :: is, hm => by
    have ih := imageReports_stops cv hcv p hb all hs is (fun j hj => hm j (by simp [hj]))
    obtain ⟨k1, k2, k3⟩ := decodeCore_spec cv hcv p all hs (i.bits.getD []) (hm i (by simp))
    obtain ⟨f1, f2⟩ := imageFault_spec cv hcv p all hs (i.bits.getD []) (hm i (by simp))
    simp only [imageReports]
    by_cases hg : GoodImage cv p (i.bits.getD [])
    · have hf := f1 hg
      obtain ⟨img, hp, h1, h2⟩ := hg
      obtain ⟨y, x, _, _, e, _⟩ := k1 img hp h1 h2
      rw [e]
      simp only
      rw [ih]
      unfold upToFirst
      rw [List.findIdx_cons]
      simp only [hf, Option.isSome_none, cond_false, List.take_succ_cons, List.flatMap_cons]
    · obtain ⟨f, hf, _⟩ := f2 hg
      unfold upToFirst
      rw [List.findIdx_cons]
      simp only [hf, Option.isSome_some, cond_true, Nat.zero_add, List.take_succ_cons, List.take_zero, List.flatMap_cons, List.flatMap_nil]
      by_cases he : p.bad = .error
      · obtain ⟨e, h, _⟩ := k3 hg he
        rw [h]
      · rw [k2 hg he]
        simp only
        have hn : ¬ (p.bad = .pad ∨ p.bad = .padWarn) := fun hx => hx.elim hb.1 hb.2
        rw [if_neg hn]

/-- How many images the loop reads, and when it gives up. -/
theorem decodeImages_count (cv : Cv) (hcv : CvOk cv) (p : ImgParams) (size : Nat) (insts : List Bytes)
    (hs : Supported cv p insts) (hlen : insts.length ≤ size) :
    ((p.bad = .pad ∨ p.bad = .padWarn) ∨ (∀ i ∈ insts, imageFault cv p i = none) →
      ∃ d, decodeImages cv p (batchStride p) insts (List.replicate (size * batchStride p) 0) 0 0 =
        .ok (some (d, (insts.filter fun i => (imageFault cv p i).isNone).length))) ∧
    ((p.bad = .skip ∨ p.bad = .skipWarn) → (∃ i ∈ insts, imageFault cv p i ≠ none) →
      decodeImages cv p (batchStride p) insts (List.replicate (size * batchStride p) 0) 0 0 = .ok none) ∧
    (p.bad = .error → (∃ i ∈ insts, imageFault cv p i ≠ none) →
      ∃ e, decodeImages cv p (batchStride p) insts (List.replicate (size * batchStride p) 0) 0 0 = .err e) := by
  -- the outcome of each instance
  let f : Bytes → Option Bytes := fun i => match decodeCore cv p i with | .ok o => o | _ => none
  have hgood : ∀ i ∈ insts, imageFault cv p i = none → ∃ x, decodeCore cv p i = .ok (some x) ∧ x.length = batchStride p := by
    intro i hi hn
    obtain ⟨f1, f2⟩ := imageFault_spec cv hcv p insts hs i hi
    obtain ⟨k1, _, _⟩ := decodeCore_spec cv hcv p insts hs i hi
    by_cases hg : GoodImage cv p i
    · obtain ⟨img, hp, h1, h2⟩ := hg
      obtain ⟨y, x, _, _, e, hl⟩ := k1 img hp h1 h2
      exact ⟨_, e, by rw [regionBytes_length img _ _ _ _ _ hl]; rfl⟩
    · obtain ⟨g, hg', _⟩ := f2 hg
      rw [hn] at hg'
      cases hg'
  have hbad : ∀ i ∈ insts, imageFault cv p i ≠ none →
      (p.bad ≠ .error → decodeCore cv p i = .ok none) ∧ (p.bad = .error → ∃ e, decodeCore cv p i = .err e) := by
    intro i hi hn
    obtain ⟨f1, f2⟩ := imageFault_spec cv hcv p insts hs i hi
    obtain ⟨_, k2, k3⟩ := decodeCore_spec cv hcv p insts hs i hi
    have hg : ¬ GoodImage cv p i := fun hg => hn (f1 hg)
    exact ⟨k2 hg, fun he => by obtain ⟨e, h, _⟩ := k3 hg he; exact ⟨e, h⟩⟩
  have hsplit : (∃ i ∈ insts, imageFault cv p i ≠ none) →
      ∃ pre b rest, insts = pre ++ b :: rest ∧ (∀ i ∈ pre, imageFault cv p i = none) ∧ imageFault cv p b ≠ none := by
    have : ∀ l : List Bytes, (∃ i ∈ l, imageFault cv p i ≠ none) →
        ∃ pre b rest, l = pre ++ b :: rest ∧ (∀ i ∈ pre, imageFault cv p i = none) ∧ imageFault cv p b ≠ none := by
      intro l
      induction l with
      | nil => rintro ⟨i, hi, _⟩; simp at hi
      | cons a l ih =>
        rintro ⟨i, hi, hb⟩
        by_cases ha : imageFault cv p a = none
        · simp only [List.mem_cons] at hi
          rcases hi with rfl | hi
          · exact absurd ha hb
          · obtain ⟨pre, b, rest, rfl, h1, h2⟩ := ih ⟨i, hi, hb⟩
            refine ⟨a :: pre, b, rest, rfl, ?_, h2⟩
            intro j hj
            simp only [List.mem_cons] at hj
            rcases hj with rfl | hj
            · exact ha
            · exact h1 j hj
        · exact ⟨[], a, l, rfl, by simp, ha⟩
    exact this insts
  refine ⟨?_, ?_, ?_⟩
  · intro hc
    by_cases hp : p.bad = .pad ∨ p.bad = .padWarn
    · have hne : p.bad ≠ .error := by rcases hp with h | h <;> rw [h] <;> simp
      have hcore : ∀ i ∈ insts, decodeCore cv p i = .ok (f i) ∧ (∀ x, f i = some x → x.length = batchStride p) ∧
          ((f i).isSome = (imageFault cv p i).isNone) := by
        intro i hi
        by_cases hn : imageFault cv p i = none
        · obtain ⟨x, e, hx⟩ := hgood i hi hn
          have hfi : f i = some x := by simp only [f, e]
          refine ⟨by rw [hfi, e], ?_, by rw [hfi, hn]; rfl⟩
          intro y hy
          rw [hfi] at hy
          cases hy
          exact hx
        · have e := (hbad i hi hn).1 hne
          have hfi : f i = none := by simp only [f, e]
          refine ⟨by rw [hfi, e], by rw [hfi]; simp, ?_⟩
          rw [hfi]
          cases h : imageFault cv p i with
          | none => exact absurd h hn
          | some _ => rfl
      have hloop := decodeImages_pad cv p (batchStride p) size hp f insts [] 0
        (fun i hi => ⟨(hcore i hi).1, (hcore i hi).2.1⟩) (by simp) (by omega)
      simp only [Nat.zero_mul, Nat.sub_zero, List.nil_append, Nat.zero_add] at hloop
      have hl : ∀ l : List Bytes, (∀ i ∈ l, i ∈ insts) →
          (l.filterMap f).length = (l.filter fun i => (imageFault cv p i).isNone).length := by
        intro l
        induction l with
        | nil => intro _; rfl
        | cons a l ih =>
          intro hl
          have ih := ih fun i hi => hl i (by simp [hi])
          have ha := (hcore a (hl a (by simp))).2.2
          cases hfa : f a with
          | none =>
            rw [hfa] at ha
            rw [List.filterMap_cons_none hfa, ih, List.filter_cons_of_neg (by rw [← ha]; simp)]
          | some x =>
            rw [hfa] at ha
            rw [List.filterMap_cons_some hfa, List.length_cons, ih, List.filter_cons_of_pos (by rw [← ha]; rfl), List.length_cons]
      refine ⟨_, hloop.trans (by rw [hl insts (fun _ h => h)])⟩
    · have hall : ∀ i ∈ insts, imageFault cv p i = none := hc.resolve_left hp
      let g : Bytes → Bytes := fun i => (f i).getD []
      have hcore : ∀ i ∈ insts, decodeCore cv p i = .ok (some (g i)) ∧ (g i).length = batchStride p := by
        intro i hi
        obtain ⟨x, e, hx⟩ := hgood i hi (hall i hi)
        have : g i = x := by simp only [g, f, e, Option.getD_some]
        rw [this]
        exact ⟨e, hx⟩
      have hloop := decodeImages_good cv p (batchStride p) size g insts [] 0 hcore (by simp) (by omega)
      simp only [Nat.zero_mul, Nat.sub_zero, List.nil_append, Nat.zero_add] at hloop
      refine ⟨_, hloop.trans (by rw [List.filter_eq_self.2 (by intro i hi; rw [hall i hi]; rfl)])⟩
  · intro hh hx
    obtain ⟨pre, b, rest, rfl, h1, h2⟩ := hsplit hx
    let g : Bytes → Bytes := fun i => (f i).getD []
    have hcore : ∀ i ∈ pre, decodeCore cv p i = .ok (some (g i)) ∧ (g i).length = batchStride p := by
      intro i hi
      obtain ⟨x, e, hx⟩ := hgood i (by simp [hi]) (h1 i hi)
      have : g i = x := by simp only [g, f, e, Option.getD_some]
      rw [this]
      exact ⟨e, hx⟩
    simp only [List.length_append, List.length_cons] at hlen
    have := (decodeImages_bad cv p (batchStride p) size b g rest pre [] 0 hcore (by simp) (by omega)).1 hh
      ((hbad b (by simp) h2).1 (by rcases hh with h | h <;> rw [h] <;> simp))
    simpa using this
  · intro hh hx
    obtain ⟨pre, b, rest, rfl, h1, h2⟩ := hsplit hx
    let g : Bytes → Bytes := fun i => (f i).getD []
    have hcore : ∀ i ∈ pre, decodeCore cv p i = .ok (some (g i)) ∧ (g i).length = batchStride p := by
      intro i hi
      obtain ⟨x, e, hx⟩ := hgood i (by simp [hi]) (h1 i hi)
      have : g i = x := by simp only [g, f, e, Option.getD_some]
      rw [this]
      exact ⟨e, hx⟩
    simp only [List.length_append, List.length_cons] at hlen
    obtain ⟨e, he⟩ := (hbad b (by simp) h2).2 hh
    have := (decodeImages_bad cv p (batchStride p) size b g rest pre [] 0 hcore (by simp) (by omega)).2 e he
    exact ⟨e, by simpa using this⟩

/-! ## Both -/

theorem instReports_flatMap {φ : Type} (warn : Bool) (said : Inst → Option φ) : ∀ is : List Inst,
    (is.flatMap fun i => if warn then (said i).toList.map (.inst i.store i.index) else []) = instReports warn said is
  | [] => by cases warn <;> rfl
  | i :: is => by
    have ih := instReports_flatMap warn said is
    rw [List.flatMap_cons, ih]
    cases warn with
    | false => rfl
    | true =>
      simp only [instReports, if_true]
      cases h : said i with
      | none => simp [h]
      | some f => simp [h]

theorem filter_isNone_isSome {α φ : Type} (said : α → Option φ) : ∀ is : List α,
    (is.filter fun i => (said i).isNone).length + (is.filter fun i => (said i).isSome).length = is.length
  | [] => rfl
  | i :: is => by
    have ih := filter_isNone_isSome said is
    cases h : said i with
    | none => simp only [List.filter_cons, h, Option.isNone_none, Option.isSome_none, if_true, Bool.false_eq_true, if_false, List.length_cons]; omega
    | some f => simp only [List.filter_cons, h, Option.isNone_some, Option.isSome_some, if_true, Bool.false_eq_true, if_false, List.length_cons]; omega

/-- The message about the example is that for the number of bad instances, if this is what the loop made of them. -/
theorem exampleReport_batch {φ ψ : Type} (h : BadHandling) (e : Nat) (said : Inst → Option ψ) (is : List Inst) (o : Res (Option Nat))
    (h1 : (h = .pad ∨ h = .padWarn) ∨ (∀ i ∈ is, said i = none) → o = .ok (some (is.filter fun i => (said i).isNone).length))
    (h2 : (h = .skip ∨ h = .skipWarn) → (∃ i ∈ is, said i ≠ none) → o = .ok none)
    (h3 : h = .error → (∃ i ∈ is, said i ≠ none) → ∃ x, o = .err x) :
    (match o with | .ok r => exampleReport (φ := φ) h e is.length r | _ => []) =
      batchReport h e (is.filter fun i => (said i).isSome).length := by
  have hsum := filter_isNone_isSome said is
  by_cases hall : ∀ i ∈ is, said i = none
  · rw [h1 (Or.inr hall)]
    have hz : (is.filter fun i => (said i).isSome).length = 0 := by
      rw [List.filter_eq_nil_iff.2 (by intro i hi; rw [hall i hi]; simp)]
      rfl
    have hn : ¬ is.length ≠ (is.filter fun i => (said i).isNone).length := by omega
    simp only [exampleReport, batchReport]
    rw [if_neg hn, if_pos hz]
  · have hex : ∃ i ∈ is, said i ≠ none := by
      apply Classical.byContradiction
      intro hx
      exact hall fun i hi => Classical.byContradiction fun hb => hx ⟨i, hi, hb⟩
    have hnz : ¬ (is.filter fun i => (said i).isSome).length = 0 := by
      obtain ⟨i, hi, hb⟩ := hex
      have : i ∈ is.filter fun i => (said i).isSome := by
        rw [List.mem_filter]
        refine ⟨hi, ?_⟩
        cases hs : said i with
        | none => exact absurd hs hb
        | some _ => rfl
      exact Nat.ne_of_gt (List.length_pos_of_mem this)
    have hne : is.length ≠ (is.filter fun i => (said i).isNone).length := by omega
    have hsub : is.length - (is.filter fun i => (said i).isNone).length = (is.filter fun i => (said i).isSome).length := by omega
    cases h with
    | error => obtain ⟨x, e⟩ := h3 rfl hex; rw [e]; simp only [batchReport]; rw [if_neg hnz]
    | skip => rw [h2 (Or.inl rfl) hex]; simp only [batchReport, exampleReport]; rw [if_neg hnz]; rfl
    | skipWarn => rw [h2 (Or.inr rfl) hex]; simp only [batchReport, exampleReport]; rw [if_neg hnz]; rfl
    | pad => rw [h1 (Or.inl (Or.inl rfl))]; simp only [batchReport, exampleReport]; rw [if_neg hnz, if_pos hne]; rfl
    | padWarn => rw [h1 (Or.inl (Or.inr rfl))]; simp only [batchReport, exampleReport]; rw [if_neg hnz, if_pos hne, hsub]; rfl

theorem filter_map_length {α β : Type} (f : α → β) (q : β → Bool) : ∀ l : List α,
    ((l.map f).filter q).length = (l.filter fun a => q (f a)).length := by
  intro l
  rw [List.filter_map, List.length_map]
  rfl

/-- The messages of a batch of messages, in terms of what is said about each. -/
theorem protoLogs_eq (parse : Bytes → Option (PRecord V)) (zero : V) (warn : Bool) (h : BadHandling) (s : Schema) (hs : SchemaOk s)
    (q : Batch Inst) (hfit : q.instances.length ≤ q.size)
    (halloc : ∀ a ∈ s.attrs, a.sparse = false → q.size * numElements a.shape.tail < 2 ^ 64) :
    protoLogs parse zero warn h s q =
      instReports warn (fun i => recordFault s (parse (i.bits.getD [])))
        (examined h (fun i => (recordFault s (parse (i.bits.getD []))).isSome) q.instances) ++
      batchReport h q.index (q.instances.filter fun i => (recordFault s (parse (i.bits.getD []))).isSome).length := by
  obtain ⟨ss, i1, i2, i3⟩ := initSlots_ok zero q.size s.attrs hs.attrs halloc
  have hslot : SlotsAll (fun _ a x => SlotFits a q.size x) s ss := ⟨i2, fun i a x ha hx => (i3 i a x ha hx).fits⟩
  obtain ⟨c1, c2, c3⟩ := protoSerial_count h s hs q.size (q.instances.map fun i => parse (i.bits.getD [])) 0 ss hslot (by simpa using hfit)
  unfold protoLogs
  congr 1
  · rw [← instReports_flatMap]
    by_cases hp : h = .pad ∨ h = .padWarn
    · rw [protoReports_pad parse warn h hp hs]
      rcases hp with rfl | rfl <;> rfl
    · have hn : h ≠ .pad ∧ h ≠ .padWarn := ⟨fun e => hp (Or.inl e), fun e => hp (Or.inr e)⟩
      rw [protoReports_stops parse warn h hn hs]
      cases h <;> first | rfl | exact absurd rfl hn.1 | exact absurd rfl hn.2
  · rw [i1]
    simp only
    have hlift : (∃ i ∈ q.instances, recordFault s (parse (i.bits.getD [])) ≠ none) →
        ∃ r ∈ q.instances.map fun i => parse (i.bits.getD []), recordFault s r ≠ none := by
      rintro ⟨i, hi, hb⟩
      exact ⟨_, List.mem_map.2 ⟨i, hi, rfl⟩, hb⟩
    have key := exampleReport_batch (φ := ProtoFault) h q.index (fun i => recordFault s (parse (i.bits.getD []))) q.instances
      (match protoSerial h s (q.instances.map fun i => parse (i.bits.getD [])) 0 ss with | .ok r => .ok r.1 | .err e => .err e | .ub w => .ub w)
      (by
        intro hc
        obtain ⟨ss', e⟩ := c1 (hc.imp id (by
          intro hx r hr
          obtain ⟨i, hi, rfl⟩ := List.mem_map.1 hr
          exact hx i hi))
        rw [e]
        simp only [Nat.zero_add]
        rw [filter_map_length])
      (by
        intro hh hx
        obtain ⟨ss', e⟩ := c2 hh (hlift hx)
        rw [e])
      (by
        intro hh hx
        exact ⟨_, by rw [c3 hh (hlift hx)]⟩)
    rw [← key]
    cases protoSerial h s (q.instances.map fun i => parse (i.bits.getD [])) 0 ss <;> rfl

/-- The messages of a batch of images, in terms of what is said about each. -/
theorem imageLogs_eq (cv : Cv) (hcv : CvOk cv) (p : ImgParams) (q : Batch Inst) (hs : Supported cv p (q.instances.map fun i => i.bits.getD []))
    (hfit : q.instances.length ≤ q.size) :
    imageLogs cv p q =
      instReports p.warn (fun i => imageFault cv p (i.bits.getD []))
        (examined p.bad (fun i => (imageFault cv p (i.bits.getD [])).isSome) q.instances) ++
      batchReport p.bad q.index (q.instances.filter fun i => (imageFault cv p (i.bits.getD [])).isSome).length := by
  obtain ⟨c1, c2, c3⟩ := decodeImages_count cv hcv p q.size (q.instances.map fun i => i.bits.getD []) hs (by simpa using hfit)
  have hmem : ∀ i ∈ q.instances, i.bits.getD [] ∈ q.instances.map fun i => i.bits.getD [] := fun i hi => List.mem_map.2 ⟨i, hi, rfl⟩
  unfold imageLogs
  congr 1
  · rw [← instReports_flatMap]
    by_cases hp : p.bad = .pad ∨ p.bad = .padWarn
    · rw [imageReports_pad cv hcv p hp _ hs _ hmem]
      rcases hp with e | e <;> rw [e] <;> rfl
    · have hn : p.bad ≠ .pad ∧ p.bad ≠ .padWarn := ⟨fun e => hp (Or.inl e), fun e => hp (Or.inr e)⟩
      rw [imageReports_stops cv hcv p hn _ hs _ hmem]
      cases e : p.bad <;> first | rfl | exact absurd e hn.1 | exact absurd e hn.2
  · have hlift : (∃ i ∈ q.instances, imageFault cv p (i.bits.getD []) ≠ none) →
        ∃ r ∈ q.instances.map fun i => i.bits.getD [], imageFault cv p r ≠ none := by
      rintro ⟨i, hi, hb⟩
      exact ⟨_, hmem i hi, hb⟩
    have key := exampleReport_batch (φ := ImgFault) p.bad q.index (fun i => imageFault cv p (i.bits.getD [])) q.instances
      (match decodeImages cv p (batchStride p) (q.instances.map fun i => i.bits.getD []) (List.replicate (q.size * batchStride p) 0) 0 0 with
        | .ok r => .ok (r.map Prod.snd) | .err e => .err e | .ub w => .ub w)
      (by
        intro hc
        obtain ⟨d, e⟩ := c1 (hc.imp id (by
          intro hx r hr
          obtain ⟨i, hi, rfl⟩ := List.mem_map.1 hr
          exact hx i hi))
        rw [e]
        simp only [Option.map_some]
        rw [filter_map_length])
      (by
        intro hh hx
        rw [c2 hh (hlift hx)]
        rfl)
      (by
        intro hh hx
        obtain ⟨x, e⟩ := c3 hh (hlift hx)
        exact ⟨x, by rw [e]⟩)
    rw [← key]
    cases decodeImages cv p (batchStride p) (q.instances.map fun i => i.bits.getD []) (List.replicate (q.size * batchStride p) 0) 0 0 <;> rfl

end Mlio
