import Verif.Proofs.ProtoBatch
import Verif.Proofs.CsvBatch

/-!
# Decoding RecordIO-protobuf batches in parallel: proofs
-/

namespace Mlio
open Spec

variable {V : Type}

theorem interleaved_perm {α : Type} (ls : List (List α)) (zs : List α) (h : Interleaved ls zs) : zs.Perm ls.flatten := by
  induction h with
  | nil ls h =>
    have : ls.flatten = [] := by
      rw [List.flatten_eq_nil_iff]
      exact h
    rw [this]
  | step pre post x l zs _ ih =>
    refine (ih.cons x).trans ?_
    simp only [List.flatten_append, List.flatten_cons, List.cons_append]
    exact List.perm_middle.symm

/-- The values of a row of a dense slot. -/
def RowIs (row : Nat) (vs : List V) (x : Slot V) : Prop :=
  ∃ sh data, x = .dense sh data ∧ row * vs.length + vs.length ≤ data.length ∧
    (data.drop (row * vs.length)).take vs.length = vs

theorem splice_same (data vs : List V) (off : Nat) (h : off + vs.length ≤ data.length) :
    ((splice data off vs).drop off).take vs.length = vs := by
  unfold splice
  rw [List.append_assoc, List.drop_left' (by simp; omega), List.take_left]

theorem splice_other (data vs : List V) (n row row' : Nat) (hv : vs.length = n) (hr : row ≠ row')
    (h : row' * n + n ≤ data.length) :
    ((splice data (row' * n) vs).drop (row * n)).take n = (data.drop (row * n)).take n := by
  apply List.ext_getElem?
  intro j
  rw [List.getElem?_take, List.getElem?_take]
  split
  · next hj =>
    rw [List.getElem?_drop, List.getElem?_drop, splice_getElem? _ _ _ (by omega), if_neg]
    rintro ⟨h1, h2⟩
    rw [hv] at h2
    rcases Nat.lt_or_gt_of_ne hr with hlt | hgt
    · have : (row + 1) * n ≤ row' * n := Nat.mul_le_mul_right _ hlt
      rw [Nat.add_mul] at this
      omega
    · have : (row' + 1) * n ≤ row * n := Nat.mul_le_mul_right _ hgt
      rw [Nat.add_mul] at this
      omega
  · rfl

/-- What a list of writes has left in the slots: every write at its place, and zeros from row `lim` on. -/
structure Written (zero : V) (s : Schema) (size lim : Nat) (ws : List (Nat × Nat × PWrite V)) (ss : List (Slot V)) : Prop where
  fits : SlotsAll (fun _ a x => SlotFits a size x) s ss
  rows : ∀ row i vs x, (row, i, .dense vs) ∈ ws → ss[i]? = some x → RowIs row vs x
  zeros : ∀ (i : Nat) (a : Attr) sh data, s.attrs[i]? = some a → ss[i]? = some (.dense sh data) →
    ZeroFrom zero False (lim * numElements a.shape.tail) (numElements a.shape.tail) data

theorem written_step (zero : V) (s : Schema) (hs : SchemaOk s) (hd : ∀ a ∈ s.attrs, a.sparse = false) (size lim : Nat)
    (hlim : lim ≤ size) (ws : List (Nat × Nat × PWrite V)) (ss : List (Slot V)) (hw : Written zero s size lim ws ss)
    (row i : Nat) (w : PWrite V) (a : Attr) (ha : s.attrs[i]? = some a) (hok : WriteOk a w) (hr : row < lim)
    (hnew : ∀ v, (row, i, v) ∉ ws)
    (hall : ∀ r k v, (r, k, v) ∈ ws → ∃ b, s.attrs[k]? = some b ∧ WriteOk b v) :
    ∃ ss', writeSlots row ss [(i, w)] = .ok ss' ∧ Written zero s size lim (ws ++ [(row, i, w)]) ss' := by
  have hmem := List.mem_of_getElem? ha
  have hsp := hd a hmem
  have hlt : i < ss.length := by rw [hw.fits.1]; exact (List.getElem?_eq_some_iff.1 ha).1
  have hi : ss[i]? = some ss[i] := List.getElem?_eq_getElem hlt
  have hfit : SlotFits a size ss[i] := hw.fits.2 i a _ ha hi
  unfold SlotFits at hfit
  unfold WriteOk at hok
  rw [hsp] at hfit hok
  simp only [Bool.false_eq_true, if_false] at hfit hok
  obtain ⟨data, hx, hlen⟩ := hfit
  obtain ⟨vs, rfl, hvs⟩ := hok
  have hle : row * vs.length + vs.length ≤ data.length := by
    rw [hlen, hvs, ← Nat.succ_mul]
    exact Nat.mul_le_mul_right _ (by omega)
  have hz := hw.zeros i a _ data ha (by rw [hi, hx])
  refine ⟨ss.set i (.dense (size :: a.shape.tail) (splice data (row * vs.length) vs)), ?_, ?_, ?_, ?_⟩
  · simp only [writeSlots, hi, hx, Slot.write]
    rw [if_pos hle]
  · refine ⟨by simpa using hw.fits.1, ?_⟩
    intro j b y hb hy
    rw [List.getElem?_set] at hy
    by_cases hij : i = j
    · subst hij
      rw [if_pos rfl, if_pos hlt] at hy
      cases hy
      rw [ha] at hb
      cases hb
      unfold SlotFits
      rw [hsp]
      simp only [Bool.false_eq_true, if_false]
      exact ⟨_, rfl, by rw [splice_length _ _ _ hle, hlen]⟩
    · rw [if_neg hij] at hy
      exact hw.fits.2 j b y hb hy
  · intro r k us y hm hy
    rw [List.getElem?_set] at hy
    rw [List.mem_append, List.mem_singleton] at hm
    by_cases hij : i = k
    · subst hij
      rw [if_pos rfl, if_pos hlt] at hy
      cases hy
      rcases hm with hm | hm
      · obtain ⟨b, hb, hbw⟩ := hall r i _ hm
        rw [ha] at hb
        cases hb
        unfold WriteOk at hbw
        rw [hsp] at hbw
        simp only [Bool.false_eq_true, if_false] at hbw
        obtain ⟨_, hu, hul⟩ := hbw
        cases hu
        have hne : r ≠ row := by
          rintro rfl
          exact hnew _ hm
        obtain ⟨sh, d, e1, e2, e3⟩ := hw.rows r i us _ hm hi
        rw [hx] at e1
        cases e1
        refine ⟨_, _, rfl, by rw [splice_length _ _ _ hle]; exact e2, ?_⟩
        have huv : vs.length = us.length := by rw [hvs, hul]
        rw [huv, splice_other _ _ _ r row huv hne (by rw [← huv]; exact hle)]
        exact e3
      · cases hm
        exact ⟨_, _, rfl, by rw [splice_length _ _ _ hle]; exact hle, splice_same _ _ _ hle⟩
    · rw [if_neg hij] at hy
      rcases hm with hm | hm
      · exact hw.rows r k us y hm hy
      · cases hm
        exact absurd rfl hij
  · intro j b sh d hb hy
    rw [List.getElem?_set] at hy
    by_cases hij : i = j
    · subst hij
      rw [if_pos rfl, if_pos hlt] at hy
      cases hy
      rw [ha] at hb
      cases hb
      intro k x hk hx'
      rw [splice_getElem? _ _ _ hle, if_neg] at hx'
      · exact hz k x hk hx'
      · rintro ⟨_, h2⟩
        have : (row + 1) * vs.length ≤ lim * vs.length := Nat.mul_le_mul_right _ hr
        rw [Nat.add_mul] at this
        rw [← hvs] at hk
        omega
    · rw [if_neg hij] at hy
      exact hw.zeros j b sh d hb hy

theorem written_all (zero : V) (s : Schema) (hs : SchemaOk s) (hd : ∀ a ∈ s.attrs, a.sparse = false) (size lim : Nat)
    (hlim : lim ≤ size) : ∀ (ws done : List (Nat × Nat × PWrite V)) (ss : List (Slot V)), Written zero s size lim done ss →
    ((done ++ ws).map fun w => (w.1, w.2.1)).Nodup →
    (∀ r k v, (r, k, v) ∈ done ++ ws → r < lim ∧ ∃ b, s.attrs[k]? = some b ∧ WriteOk b v) →
    ∃ ss', writeRowsTo ss ws = .ok ss' ∧ Written zero s size lim (done ++ ws) ss'
  | [], done, ss, hw, _, _ => ⟨ss, rfl, by rw [List.append_nil]; exact hw⟩
  | (row, i, w) :: ws, done, ss, hw, hnd, hall => by
    obtain ⟨hr, a, ha, hok⟩ := hall row i w (by simp)
    have hnew : ∀ v, (row, i, v) ∉ done := by
      intro v hv
      rw [List.map_append, List.nodup_append] at hnd
      exact hnd.2.2 (row, i) (List.mem_map.2 ⟨_, hv, rfl⟩) (row, i) (by simp) rfl
    obtain ⟨ss', h1, h2⟩ := written_step zero s hs hd size lim hlim done ss hw row i w a ha hok hr hnew
      (fun r k v h => (hall r k v (List.mem_append_left _ h)).2)
    obtain ⟨ss'', h3, h4⟩ := written_all zero s hs hd size lim hlim ws (done ++ [(row, i, w)]) ss' h2
      (by simpa using hnd) (by simpa using hall)
    refine ⟨ss'', ?_, by simpa using h4⟩
    simp only [writeRowsTo, h1, h3]

/-! ## Tasks -/

/-- The writes of instances, each with its row. -/
def messageWrites (eb : Bool) (s : Schema) (b : List (Nat × Option (PRecord V))) : List (Nat × Nat × PWrite V) :=
  b.flatMap fun x => (recordRun eb s x.2).1.map fun w => (x.1, w)

theorem protoTask_done (h : BadHandling) (s : Schema) : ∀ b : List (Nat × Option (PRecord V)),
    (protoTask h s b).2 = .done →
    (protoTask h s b).1 = messageWrites (h == .error) s b ∧ ∀ x ∈ b, (recordRun (h == .error) s x.2).2 = .ok true
  | [], _ => ⟨rfl, by simp⟩
  | (row, r) :: b, hd => by
    rcases hr : (recordRun (h == .error) s r).2 with (_ | _) | e | w
    · simp only [protoTask, hr] at hd
      split at hd <;> cases hd
    · simp only [protoTask, hr] at hd ⊢
      obtain ⟨i1, i2⟩ := protoTask_done h s b hd
      refine ⟨by rw [i1]; rfl, ?_⟩
      intro x hx
      rcases List.mem_cons.1 hx with rfl | hx
      · exact hr
      · exact i2 x hx
    · simp only [protoTask, hr] at hd; cases hd
    · simp only [protoTask, hr] at hd; cases hd

theorem protoTask_end (h : BadHandling) (hp : h ≠ .pad ∧ h ≠ .padWarn) (s : Schema) (hs : SchemaOk s) :
    ∀ b : List (Nat × Option (PRecord V)),
    (protoTask h s b).2 = .done ∨
    (h = .error ∧ (protoTask h s b).2 = .threw .invalidInstance ∨ h ≠ .error ∧ (protoTask h s b).2 = .skipped) ∧
      ∃ x ∈ b, (recordRun (h == .error) s x.2).2 ≠ .ok true
  | [] => Or.inl rfl
  | (row, r) :: b => by
    rcases recordRun_res (h == .error) s hs r with hr | hr
    · rcases protoTask_end h hp s hs b with hb | ⟨hb, x, hx, hx'⟩
      · left; simp only [protoTask, hr, hb]
      · right
        refine ⟨?_, x, List.mem_cons_of_mem _ hx, hx'⟩
        rcases hb with hb | hb
        · left; refine ⟨hb.1, ?_⟩; simp only [protoTask, hr]; exact hb.2
        · right; refine ⟨hb.1, ?_⟩; simp only [protoTask, hr]; exact hb.2
    · right
      refine ⟨?_, (row, r), by simp, by rw [hr]; exact badInstance_ne _⟩
      cases h with
      | error => left; refine ⟨rfl, ?_⟩; simp only [protoTask, hr]; rfl
      | skip => right; refine ⟨by simp, ?_⟩; simp only [protoTask, hr]; rfl
      | skipWarn => right; refine ⟨by simp, ?_⟩; simp only [protoTask, hr]; rfl
      | pad => exact absurd rfl hp.1
      | padWarn => exact absurd rfl hp.2

theorem messageWrites_append (eb : Bool) (s : Schema) (b b' : List (Nat × Option (PRecord V))) :
    messageWrites eb s (b ++ b') = messageWrites eb s b ++ messageWrites eb s b' := by
  simp [messageWrites]

theorem messageWrites_flatten (eb : Bool) (s : Schema) (bs : List (List (Nat × Option (PRecord V)))) :
    messageWrites eb s bs.flatten = (bs.map (messageWrites eb s)).flatten := by
  induction bs with
  | nil => rfl
  | cons b bs ih => simp [messageWrites_append, ih]

theorem numbered_mem {α : Type} {rs : List α} {x : Nat × α} : x ∈ numbered rs ↔ rs[x.1]? = some x.2 := by
  obtain ⟨i, r⟩ := x
  simp only [numbered, List.mem_map, Prod.mk.injEq, Prod.exists]
  constructor
  · rintro ⟨r', i', h, rfl, rfl⟩
    have := List.mem_zipIdx' h
    rw [this.2]
    exact List.getElem?_eq_getElem this.1
  · intro h
    exact ⟨r, i, List.mk_mem_zipIdx_iff_getElem?.2 h, rfl, rfl⟩

theorem numbered_rows {α : Type} (rs : List α) : (numbered rs).map Prod.fst = List.range rs.length := by
  simp only [numbered, List.map_map]
  have : (Prod.fst ∘ fun x : α × Nat => (x.2, x.1)) = Prod.snd := rfl
  rw [this, List.range_eq_range', List.zipIdx_map_snd]

theorem protoTask_writes (h : BadHandling) (s : Schema) : ∀ (b : List (Nat × Option (PRecord V))) (w : Nat × Nat × PWrite V),
    w ∈ (protoTask h s b).1 → ∃ x ∈ b, w.1 = x.1 ∧ w.2 ∈ (recordRun (h == .error) s x.2).1
  | [], w, hw => by simp [protoTask] at hw
  | (row, r) :: b, w, hw => by
    have first : w ∈ (recordRun (h == .error) s r).1.map (fun w => (row, w)) →
        ∃ x ∈ (row, r) :: b, w.1 = x.1 ∧ w.2 ∈ (recordRun (h == .error) s x.2).1 := by
      intro hm
      obtain ⟨v, hv, rfl⟩ := List.mem_map.1 hm
      exact ⟨(row, r), by simp, rfl, hv⟩
    rcases hr : (recordRun (h == .error) s r).2 with (_ | _) | e | u
    · simp only [protoTask, hr] at hw
      split at hw <;> exact first hw
    · simp only [protoTask, hr, List.mem_append] at hw
      rcases hw with hw | hw
      · exact first hw
      · obtain ⟨x, hx, h'⟩ := protoTask_writes h s b w hw
        exact ⟨x, List.mem_cons_of_mem _ hx, h'⟩
    · simp only [protoTask, hr] at hw; exact first hw
    · simp only [protoTask, hr] at hw; exact first hw

theorem recordRun_writeOk (eb : Bool) (s : Schema) (hs : SchemaOk s) (r : Option (PRecord V)) (i : Nat) (w : PWrite V)
    (h : (i, w) ∈ (recordRun eb s r).1) : ∃ a, s.attrs[i]? = some a ∧ WriteOk a w := by
  cases r with
  | none => simp [recordRun] at h
  | some r =>
    rw [recordRun_writes] at h
    obtain ⟨a, ha, hok, _⟩ := featuresRun_writes eb s hs r.entries i w h
    exact ⟨a, ha, hok⟩

theorem writeRowsTo_safe (s : Schema) (hs : SchemaOk s) (size : Nat) : ∀ (ws : List (Nat × Nat × PWrite V)) (ss : List (Slot V)),
    SlotsAll (fun _ a x => SlotFits a size x) s ss →
    (∀ r k v, (r, k, v) ∈ ws → r < size ∧ ∃ b, s.attrs[k]? = some b ∧ WriteOk b v) →
    ∃ ss', writeRowsTo ss ws = .ok ss' ∧ SlotsAll (fun _ a x => SlotFits a size x) s ss'
  | [], ss, hss, _ => ⟨ss, rfl, hss⟩
  | (row, i, w) :: ws, ss, hss, hall => by
    obtain ⟨hr, a, ha, hok⟩ := hall row i w (by simp)
    obtain ⟨ss', h1, h2⟩ := writeSlots_keep _ s row [(i, w)] ss hss (by
      intro j v hv
      simp only [List.mem_singleton, Prod.mk.injEq] at hv
      obtain ⟨rfl, rfl⟩ := hv
      exact ⟨a, ha, fun x hx => write_safe a (hs.attrs a (List.mem_of_getElem? ha)) size row hr x v hx hok⟩)
    obtain ⟨ss'', h3, h4⟩ := writeRowsTo_safe s hs size ws ss' h2 (fun r k v h => hall r k v (by simp [h]))
    exact ⟨ss'', by simp only [writeRowsTo, h1, h3], h4⟩

/-- Rows that follow each other. -/
theorem rows_prefix (n : Nat) : ∀ (rows : List (List V)) (data : List V), (∀ r ∈ rows, r.length = n) →
    (∀ (i : Nat) r, rows[i]? = some r → i * n + n ≤ data.length ∧ (data.drop (i * n)).take n = r) → rows.flatten <+: data
  | [], data, _, _ => List.nil_prefix
  | r :: rows, data, hl, h => by
    obtain ⟨h0, h0'⟩ := h 0 r rfl
    simp only [Nat.zero_mul, Nat.zero_add, List.drop_zero] at h0 h0'
    have ih := rows_prefix n rows (data.drop n) (fun x hx => hl x (by simp [hx])) (by
      intro i x hx
      obtain ⟨h1, h2⟩ := h (i + 1) x (by simpa using hx)
      rw [Nat.add_mul, Nat.one_mul] at h1 h2
      refine ⟨by rw [List.length_drop]; omega, ?_⟩
      rw [List.drop_drop, Nat.add_comm]
      exact h2)
    rw [List.flatten_cons]
    conv => rhs; rw [← List.take_append_drop n data]
    rw [h0']
    exact List.prefix_append_right_inj _ |>.2 ih

theorem conforming_of_good (s : Schema) : ∀ (rs : List (Option (PRecord V))), (∀ r ∈ rs, ¬ IsBad s r) →
    rs = (conforming s rs).map some
  | [], _ => rfl
  | r :: rs, h => by
    obtain ⟨x, rfl, hx⟩ := not_isBad (h r (by simp))
    rw [conforming_cons_good rs hx, List.map_cons, ← conforming_of_good s rs (fun r hr => h r (by simp [hr]))]

theorem conforming_goods {s : Schema} {rs : List (Option (PRecord V))} (hc : ∀ r ∈ rs, ∀ x, r = some x → NoClash x) :
    Goods s (conforming s rs) := by
  intro g hg
  simp only [conforming, List.mem_filter, decide_eq_true_eq] at hg
  refine ⟨hc (some g) ?_ g rfl, hg.2⟩
  obtain ⟨r, hr, e⟩ := List.mem_filterMap.1 hg.1
  simp only [id] at e
  rw [← e]
  exact hr

/-- The keys of the writes of good instances are distinct. -/
theorem messageWrites_nodup (eb : Bool) (s : Schema) (hs : SchemaOk s) : ∀ (b : List (Nat × Option (PRecord V))),
    (b.map Prod.fst).Nodup → (∀ x ∈ b, ∃ r, x.2 = some r ∧ NoClash r ∧ Conforms s r) →
    ((messageWrites eb s b).map fun w => (w.1, w.2.1)).Nodup
  | [], _, _ => by simp [messageWrites]
  | (row, r) :: b, hnd, hg => by
    simp only [List.map_cons, List.nodup_cons] at hnd
    obtain ⟨g, rfl, hc, hg0⟩ := hg (row, r) (by simp)
    have ih := messageWrites_nodup eb s hs b hnd.2 (fun x hx => hg x (by simp [hx]))
    have e : messageWrites eb s ((row, some g) :: b) =
        ((featuresRun eb s g.entries).1.map fun w => (row, w)) ++ messageWrites eb s b := by
      simp [messageWrites, recordRun_writes]
    rw [e, List.map_append, List.map_map, List.nodup_append]
    refine ⟨?_, ih, ?_⟩
    · have := (featuresRun_good eb s hs g.entries hc ((conforms_iff s hs g hc).1 hg0).1).1
      have e2 : ((featuresRun eb s g.entries).1.map ((fun w : Nat × Nat × PWrite V => (w.1, w.2.1)) ∘ fun w => (row, w))) =
          ((featuresRun eb s g.entries).1.map Prod.fst).map (fun i => (row, i)) := by
        rw [List.map_map]; rfl
      rw [e2, List.Nodup, List.pairwise_map]
      exact this.imp fun h h' => h (by cases h'; rfl)
    · rintro ⟨r1, i1⟩ h1 ⟨r2, i2⟩ h2 heq
      cases heq
      obtain ⟨w, _, hw⟩ := List.mem_map.1 h1
      cases hw
      obtain ⟨⟨r3, i3, w3⟩, hw3, e3⟩ := List.mem_map.1 h2
      cases e3
      simp only [messageWrites, List.mem_flatMap, List.mem_map] at hw3
      obtain ⟨x, hx, _, _, e4⟩ := hw3
      cases e4
      exact hnd.1 (List.mem_map.2 ⟨x, hx, rfl⟩)

theorem rowsOf_getElem {s : Schema} {gs : List (PRecord V)} (hg : Goods s gs) (a : Attr) (ha : a ∈ s.attrs) (j : Nat)
    (t : PTensor V) (h : (rowsOf a gs)[j]? = some t) : ∃ g, gs[j]? = some g ∧ tensorOf a.name g = some t := by
  induction gs generalizing j with
  | nil => simp [rowsOf] at h
  | cons g gs ih =>
    obtain ⟨t', ht, _⟩ := conforms_tensorOf (hg g (by simp)).1 (hg g (by simp)).2 a ha
    have e : rowsOf a (g :: gs) = t' :: rowsOf a gs := by simp [rowsOf, ht]
    rw [e] at h
    cases j with
    | zero => cases h; exact ⟨g, rfl, ht⟩
    | succ j => exact ih (fun x hx => hg x (by simp [hx])) j (by simpa using h)

theorem blocks_mem {rs : List (Option (PRecord V))} {blocks : List (List (Nat × Option (PRecord V)))}
    (hb : blocks.flatten = numbered rs) {b : List (Nat × Option (PRecord V))} (hm : b ∈ blocks)
    {x : Nat × Option (PRecord V)} (hx : x ∈ b) : rs[x.1]? = some x.2 :=
  numbered_mem.1 (hb ▸ List.mem_flatten.2 ⟨b, hm, hx⟩)

theorem tasks_writeOk (h : BadHandling) (s : Schema) (hs : SchemaOk s) {rs : List (Option (PRecord V))}
    {blocks : List (List (Nat × Option (PRecord V)))} (hb : blocks.flatten = numbered rs)
    {ws : List (Nat × Nat × PWrite V)} (hw : Interleaved (blocks.map fun b => (protoTask h s b).1) ws) :
    ∀ r k v, (r, k, v) ∈ ws → r < rs.length ∧ ∃ b, s.attrs[k]? = some b ∧ WriteOk b v := by
  intro r k v hv
  obtain ⟨l, hl, hv⟩ := (interleaved_mem _ _ hw _).1 hv
  obtain ⟨b, hbm, rfl⟩ := List.mem_map.1 hl
  obtain ⟨x, hx, e, hx'⟩ := protoTask_writes h s b _ hv
  have := blocks_mem hb hbm hx
  simp only at e hx'
  exact ⟨e ▸ (List.getElem?_eq_some_iff.1 this).1, recordRun_writeOk _ s hs x.2 k v hx'⟩

/-- Whatever the instances are, decoding in parallel ends in one of three ways. -/
theorem protoPrl_safe (h : BadHandling) (hp : h ≠ .pad ∧ h ≠ .padWarn) (s : Schema) (hs : SchemaOk s) (size : Nat)
    (rs : List (Option (PRecord V))) (hl : rs.length ≤ size) (ss : List (Slot V))
    (hss : SlotsAll (fun _ a x => SlotFits a size x) s ss) (o : Res (Option Nat × List (Slot V)))
    (ho : ProtoPrl h s rs ss o) :
    (∃ n ss', o = .ok (n, ss') ∧ SlotsAll (fun _ a x => SlotFits a size x) s ss') ∨
    (h = .error ∧ o = .err .invalidInstance) := by
  cases ho with
  | finished blocks ws ss' hb hw he hs' =>
    left
    obtain ⟨ss'', h1, h2⟩ := writeRowsTo_safe s hs size ws ss hss (fun r k v hv =>
      have := tasks_writeOk h s hs hb hw r k v hv
      ⟨by omega, this.2⟩)
    rw [h1] at hs'
    cases hs'
    exact ⟨_, _, rfl, h2⟩
  | threw blocks b e hb hm he =>
    right
    rcases protoTask_end h hp s hs b with hd | ⟨hd | hd, _⟩
    · rw [hd] at he; cases he
    · rw [hd.2] at he; cases he; exact ⟨hd.1, rfl⟩
    · rw [hd.2] at he; cases he
  | ub blocks ws w hb hw hu =>
    exfalso
    rcases hu with hu | ⟨b, _, hu⟩
    · obtain ⟨ss'', h1, h2⟩ := writeRowsTo_safe s hs size ws ss hss (fun r k v hv =>
        have := tasks_writeOk h s hs hb hw r k v hv
        ⟨by omega, this.2⟩)
      rw [h1] at hu
      cases hu
    · rcases protoTask_end h hp s hs b with hd | ⟨hd | hd, _⟩
      · rw [hd] at hu; cases hu
      · rw [hd.2] at hu; cases hu
      · rw [hd.2] at hu; cases hu

theorem protoPrl_good (zero : V) (h : BadHandling) (hp : h ≠ .pad ∧ h ≠ .padWarn) (s : Schema) (hs : SchemaOk s)
    (hd : ∀ a ∈ s.attrs, a.sparse = false) (size : Nat) (rs : List (Option (PRecord V))) (hl : rs.length ≤ size)
    (hc : ∀ r ∈ rs, ∀ x, r = some x → NoClash x) (hg : ∀ r ∈ rs, ¬ IsBad s r) (ss : List (Slot V))
    (hss : Holds zero False s size [] ss) (o : Res (Option Nat × List (Slot V))) (ho : ProtoPrl h s rs ss o) :
    ∃ ss', o = .ok (some rs.length, ss') ∧ Holds zero False s size (conforming s rs) ss' := by
  have hres : ∀ r ∈ rs, (recordRun (h == .error) s r).2 = .ok true := by
    intro r hr
    obtain ⟨x, rfl, hx⟩ := not_isBad (hg r hr)
    exact (recordRun_out _ s hs x (hc _ hr x rfl)).1 hx
  have hend : ∀ blocks : List (List (Nat × Option (PRecord V))), blocks.flatten = numbered rs →
      ∀ b ∈ blocks, (protoTask h s b).2 = .done := by
    intro blocks hb b hm
    rcases protoTask_end h hp s hs b with h1 | ⟨_, x, hx, hx'⟩
    · exact h1
    · exact absurd (hres _ (List.mem_of_getElem? (blocks_mem hb hm hx))) hx'
  rcases protoPrl_safe h hp s hs size rs hl ss hss.fits o ho with hok | ⟨herr, hok⟩
  case inr =>
    exfalso
    subst hok
    cases ho with
    | threw blocks b e hb hm he => rw [hend blocks hb b hm] at he; cases he
  obtain ⟨n, ss1, rfl, _⟩ := hok
  cases ho with
  | finished blocks ws ss' hb hw he hs' =>
    have hn : blocks.any (fun b => (protoTask h s b).2 == .skipped) = false := by
      rw [List.any_eq_false]
      intro b hbm
      rw [hend blocks hb b hbm]
      decide
    rw [hn]
    refine ⟨ss1, rfl, ?_⟩
    have hgood : ∀ x ∈ numbered rs, ∃ r, x.2 = some r ∧ NoClash r ∧ Conforms s r := by
      intro x hx
      have hx := List.mem_of_getElem? (numbered_mem.1 hx)
      obtain ⟨r, e, hr⟩ := not_isBad (hg _ hx)
      exact ⟨r, e, hc _ hx r e, hr⟩
    have hperm : ws.Perm (messageWrites (h == .error) s (numbered rs)) := by
      refine (interleaved_perm _ _ hw).trans ?_
      rw [← hb, messageWrites_flatten]
      have : (blocks.map fun b => (protoTask h s b).1) = blocks.map (messageWrites (h == .error) s) := by
        apply List.map_congr_left
        intro b hbm
        exact (protoTask_done h s b (hend blocks hb b hbm)).1
      rw [this]
    have hnd : (ws.map fun w => (w.1, w.2.1)).Nodup :=
      (hperm.map _).nodup_iff.2 (messageWrites_nodup _ s hs _ (by rw [numbered_rows]; exact List.nodup_range) hgood)
    have hw0 : Written zero s size rs.length [] ss := by
      refine ⟨hss.fits, by simp, ?_⟩
      intro i a sh data ha hi
      have := hss.2 i a _ ha hi
      simp only [SlotHolds, hd a (List.mem_of_getElem? ha), Bool.false_eq_true, if_false] at this
      obtain ⟨_, e, _, _, _, hz⟩ := this
      cases e
      intro j x _ hj
      exact hz j x (Or.inr ⟨by simp [rowsOf], by simp⟩) hj
    obtain ⟨ss2, h1, hw2⟩ := written_all zero s hs hd size rs.length hl ws [] ss hw0 hnd
      (by simpa using tasks_writeOk h s hs hb hw)
    rw [hs'] at h1
    cases h1
    refine ⟨hw2.fits.1, ?_⟩
    intro i a x ha hx
    have hmem := List.mem_of_getElem? ha
    have hfit : SlotFits a size x := hw2.fits.2 i a x ha hx
    simp only [SlotFits, hd a hmem, Bool.false_eq_true, if_false] at hfit
    simp only [SlotHolds, hd a hmem, Bool.false_eq_true, if_false]
    obtain ⟨data, rfl, hlen⟩ := hfit
    have hgs := conforming_goods (s := s) hc
    have hrs := conforming_of_good s rs hg
    have hlr : (rowsOf a (conforming s rs)).length = rs.length := by
      rw [rowsOf_length hgs a hmem]
      conv => rhs; rw [hrs]
      simp
    have hvals : ∀ t ∈ rowsOf a (conforming s rs), t.values.length = numElements a.shape.tail := by
      intro t ht
      obtain ⟨g, hg', e⟩ := List.mem_filterMap.1 ht
      obtain ⟨t', e', hf⟩ := conforms_tensorOf (hgs g hg').1 (hgs g hg').2 a hmem
      rw [e] at e'
      cases e'
      have := hf.2
      rw [hd a hmem] at this
      simp only [Bool.false_eq_true, if_false] at this
      exact this.2
    refine ⟨data, rfl, hlen, ?_, ?_, ?_⟩
    · refine rows_prefix (numElements a.shape.tail) _ data ?_ ?_
      · intro r hr
        obtain ⟨t, ht, rfl⟩ := List.mem_map.1 hr
        exact hvals t ht
      · intro j r hr
        rw [List.getElem?_map] at hr
        cases ht : (rowsOf a (conforming s rs))[j]? with
        | none => rw [ht] at hr; cases hr
        | some t =>
        rw [ht] at hr
        cases hr
        obtain ⟨g, hgj, htg⟩ := rowsOf_getElem hgs a hmem j t ht
        have hrj : rs[j]? = some (some g) := by rw [hrs, List.getElem?_map, hgj]; rfl
        have hgg := hgs g (List.mem_of_getElem? hgj)
        obtain ⟨f1, f2, f3⟩ := featuresRun_good (h == .error) s hs g.entries hgg.1 ((conforms_iff s hs g hgg.1).1 hgg.2).1
        obtain ⟨v, hv, _⟩ := hgg.2.1 a hmem
        obtain ⟨w, hwm⟩ := f3 i a v ha hv
        obtain ⟨a', t', ha', hm', _, rfl⟩ := f2 i w hwm
        rw [ha] at ha'
        cases ha'
        have : tensorOf a.name g = some t' := tensorOf_mem hgg.1 hm'
        rw [htg] at this
        cases this
        have hmw : (j, i, PWrite.dense t.values) ∈ ws := by
          refine hperm.mem_iff.2 (List.mem_flatMap.2 ⟨(j, some g), numbered_mem.2 hrj, List.mem_map.2 ⟨_, ?_, rfl⟩⟩)
          rw [recordRun_writes]
          simpa [goodWrite, hd a hmem] using hwm
        obtain ⟨sh, d, e1, e2, e3⟩ := hw2.rows j i _ _ hmw hx
        cases e1
        rw [hvals t (List.mem_of_getElem? ht)] at e2 e3
        exact ⟨e2, e3⟩
    · rw [List.length_flatten, List.map_map]
      have : (rowsOf a (conforming s rs)).map (List.length ∘ PTensor.values) =
          (rowsOf a (conforming s rs)).map fun _ => numElements a.shape.tail :=
        List.map_congr_left fun t ht => hvals t ht
      rw [this, List.map_const', List.sum_replicate_nat]
    · rw [hlr]
      exact hw2.zeros i a _ data ha hx

/-- A bad instance among those decoded in parallel. -/
theorem protoPrl_bad (h : BadHandling) (hp : h ≠ .pad ∧ h ≠ .padWarn) (s : Schema) (hs : SchemaOk s) (size : Nat)
    (rs : List (Option (PRecord V))) (hl : rs.length ≤ size) (hc : ∀ r ∈ rs, ∀ x, r = some x → NoClash x)
    (hbad : ∃ r ∈ rs, IsBad s r) (ss : List (Slot V)) (hss : SlotsAll (fun _ a x => SlotFits a size x) s ss)
    (o : Res (Option Nat × List (Slot V))) (ho : ProtoPrl h s rs ss o) :
    (h = .error → o = .err .invalidInstance) ∧ (h ≠ .error → ∃ ss', o = .ok (none, ss')) := by
  obtain ⟨r, hr, hbad⟩ := hbad
  have key : ∀ blocks : List (List (Nat × Option (PRecord V))), blocks.flatten = numbered rs →
      ∃ b ∈ blocks, (protoTask h s b).2 ≠ .done := by
    intro blocks hb
    obtain ⟨j, hj⟩ := List.mem_iff_getElem?.1 hr
    have hm : (j, r) ∈ blocks.flatten := hb ▸ numbered_mem.2 hj
    obtain ⟨b, hbm, hx⟩ := List.mem_flatten.1 hm
    refine ⟨b, hbm, fun hdone => ?_⟩
    have := (protoTask_done h s b hdone).2 _ hx
    rw [recordRun_bad _ s hs r hbad (hc r hr)] at this
    exact badInstance_ne _ this
  rcases protoPrl_safe h hp s hs size rs hl ss hss o ho with ⟨n, ss', rfl, _⟩ | ⟨he, rfl⟩
  · cases ho with
    | finished blocks ws _ hb hw he hs' =>
      obtain ⟨b, hbm, hnd⟩ := key blocks hb
      have hsk : (protoTask h s b).2 = .skipped := (he b hbm).resolve_left hnd
      refine ⟨fun heq => ?_, fun _ => ⟨ss', ?_⟩⟩
      · rcases protoTask_end h hp s hs b with hd | ⟨hd | hd, _⟩
        · exact absurd hd hnd
        · rw [hsk] at hd; cases hd.2
        · exact absurd heq hd.1
      · have : blocks.any (fun b => (protoTask h s b).2 == .skipped) = true :=
          List.any_eq_true.2 ⟨b, hbm, by rw [hsk]; decide⟩
        rw [this]
        rfl
  · exact ⟨fun _ => rfl, fun hne => absurd he hne⟩

theorem not_serially {h : BadHandling} {s : Schema} {n : Nat} (hn : ¬ protoRunsSerially h s n = true) :
    (h ≠ .pad ∧ h ≠ .padWarn) ∧ ∀ a ∈ s.attrs, a.sparse = false := by
  simp only [protoRunsSerially, Bool.or_eq_true, not_or, Bool.not_eq_true, List.any_eq_false] at hn
  obtain ⟨⟨⟨h1, h2⟩, h3⟩, _⟩ := hn
  refine ⟨⟨?_, ?_⟩, h1⟩
  · rintro rfl; cases h2
  · rintro rfl; cases h3

/-- One task for everything. -/
theorem protoPrl_some (h : BadHandling) (hp : h ≠ .pad ∧ h ≠ .padWarn) (s : Schema) (hs : SchemaOk s) (size : Nat)
    (rs : List (Option (PRecord V))) (hl : rs.length ≤ size) (ss : List (Slot V))
    (hss : SlotsAll (fun _ a x => SlotFits a size x) s ss) : ∃ o, ProtoPrl h s rs ss o := by
  have hb : [numbered rs].flatten = numbered rs := by simp
  have hw : Interleaved ([numbered rs].map fun b => (protoTask h s b).1) (protoTask h s (numbered rs)).1 :=
    interleaved_single _
  obtain ⟨ss', h1, _⟩ := writeRowsTo_safe s hs size _ ss hss (fun r k v hv =>
    have := tasks_writeOk h s hs hb hw r k v hv
    ⟨by omega, this.2⟩)
  rcases protoTask_end h hp s hs (numbered rs) with hd | ⟨hd | hd, _⟩
  · exact ⟨_, .finished _ _ ss' hb hw (by simp [hd]) h1⟩
  · exact ⟨_, .threw _ _ _ hb (by simp) hd.2⟩
  · exact ⟨_, .finished _ _ ss' hb hw (by simp [hd.2]) h1⟩

end Mlio
