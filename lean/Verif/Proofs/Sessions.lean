import Verif.Proofs.EndToEnd
import Verif.Props.SchemaReader
import Verif.Props.DataReader
import Verif.Proofs.CsvReader
import Verif.Model.Sessions
import Verif.Props.FileTree
import Verif.Spec.Sessions

/-! # Sessions with a reader over a dataset: proofs -/

namespace Mlio
open Spec Machine

/-- What `make_instance_reader` makes is derived from `Instance_reader_base`. -/
theorem make_base {α : Type} (R : Rng) (o : ReadOptions) (core m : Machine α) (h : makeInstanceReader R o core = some m) :
    ∃ r : Machine α, m = r.base := by
  unfold makeInstanceReader at h
  simp only at h
  split at h
  · cases h
  · split at h
    · split at h
      · split at h <;> exact ⟨_, (Option.some.inj h).symm⟩
      · cases h
    · split at h
      · exact ⟨_, (Option.some.inj h).symm⟩
      · have := (Option.some.inj h).symm
        subst this
        split
        · exact ⟨_, rfl⟩
        · split
          · exact ⟨_, rfl⟩
          · exact ⟨_, rfl⟩

theorem outs_base {α : Type} (m : Machine α) (n : Nat) : ∀ s : m.σ, m.base.outs n (s, none) = m.outs n s := by
  induction n with
  | zero => intro s; rfl
  | succ n ih =>
    intro s
    simp only [outs, base, baseRead]
    exact congrArg _ (ih _)

theorem yields_of_base {α : Type} {m : Machine α} {s : m.σ} {xs : List α} {t : Res (Option α)} (h : m.base.Yields (s, none) xs t) :
    m.Yields s xs t := by
  intro n
  rw [← outs_base]
  exact h n

section
variable {α ε S ι : Type} {b : Nat} {l : LastHandling} {r : Machine α} {P Q : Nat} {size : α → Nat}
  {dec : Batch α → Except Err (Option ε)} {infer : Infer α S ι}

/-- Where an epoch began. -/
def Begins {α ε : Type} {m : Machine (Batch α)} (p : PState m ε) : Prop := p.start = m.init ∨ ∃ u, p.start = m.reset u

theorem begins_step {m : Machine (Batch α)} {p p' : PState m ε} {a : PAct} (h : Begins p) (hs : pstep P Q dec a p = some p') :
    Begins p' := by
  rcases start_eq hs with h1 | ⟨_, u, h1⟩
  · unfold Begins; rw [h1]; exact h
  · exact .inr ⟨u, h1⟩

theorem settle_pipe {m : Machine (Batch α)} (d : DState m ε) (p : PState m ε) : (d.settle p).p = p := by
  unfold DState.settle
  split
  · split <;> rfl
  · rfl

theorem begins_dstep {m : Machine (Batch α)} {d d' : DState m ε} {a : DAct} (h : Begins d.p) (hs : dstep P Q size dec a d = some d') :
    Begins d'.p := by
  cases a with
  | call c =>
    simp only [dstep, dCall] at hs
    split at hs
    · split at hs
      · cases hs; exact h
      · cases hs; exact h
      · simp only [Option.map_eq_some_iff] at hs
        obtain ⟨p, hp, rfl⟩ := hs
        rw [settle_pipe]
        exact begins_step (P := P) (Q := Q) (dec := dec) (a := .callRead) h hp
    · cases hs
  | reset =>
    simp only [dstep, Option.map_eq_some_iff] at hs
    obtain ⟨p, hp, rfl⟩ := hs
    have := begins_step (P := P) (Q := Q) (dec := dec) (a := .callReset) h hp
    split <;> exact this
  | sys a =>
    simp only [dstep] at hs
    split at hs
    · cases hs
    · simp only [Option.map_eq_some_iff] at hs
      obtain ⟨p, hp, rfl⟩ := hs
      have := begins_step h hp
      split
      · exact this
      · rw [settle_pipe]; exact this

theorem begins_ensure {w : WState b l r ε S ι} (h : Begins w.d.p) : Begins (ensureSchema infer w).2.d.p := by
  have key : (ensureSchema infer w).2.d.p.start = w.d.p.start := by
    cases hs : w.schema with
    | some x => simp [ensureSchema, hs]
    | none =>
      rcases hp : basePeek r w.d.p.src.1 with ⟨o, i⟩
      cases o with
      | ok inst =>
        rcases hi : infer w.mem inst with ⟨o2, mem⟩
        cases o2 <;> simp [ensureSchema, hs, hp, hi]
      | err e => simp [ensureSchema, hs, hp]
      | ub u => simp [ensureSchema, hs, hp]
  unfold Begins
  rw [key]
  exact h

theorem begins_wstep {w w' : WState b l r ε S ι} {a : WAct} (h : Begins w.d.p) (hs : wstep P Q size dec infer a w = some w') :
    Begins w'.d.p := by
  have key : ∀ {w w' : WState b l r ε S ι} {a : DAct}, Begins w.d.p →
      (dstep P Q size dec a w.d).map (fun d => { w with d := d }) = some w' → Begins w'.d.p := by
    intro w w' a h hs
    simp only [Option.map_eq_some_iff] at hs
    obtain ⟨d, hd, rfl⟩ := hs
    exact begins_dstep h hd
  cases a with
  | readSchema =>
    simp only [wstep] at hs
    split at hs
    · cases hs
      exact begins_ensure h
    · cases hs
  | dact a =>
    cases a with
    | sys a => exact key h hs
    | reset => exact key h hs
    | call c =>
      simp only [wstep] at hs
      split at hs
      · have he := begins_ensure (infer := infer) h
        generalize ensureSchema infer w = p at hs he
        obtain ⟨o, w1⟩ := p
        match o with
        | .ok s =>
          simp only [Option.map_eq_some_iff] at hs
          obtain ⟨d, hd, rfl⟩ := hs
          exact begins_dstep (P := P) (Q := Q) (size := size) (dec := dec) (a := .call c) he hd
        | .err e =>
          simp only [Option.some.injEq] at hs
          subst hs
          exact he
        | .ub u =>
          simp only [Option.some.injEq] at hs
          subst hs
          exact he
      · exact key (a := .call c) h hs

theorem begins_wrun {mem : ι} {w : WState b l r ε S ι} (hw : WReachable P Q size dec infer mem w) : Begins w.d.p := by
  obtain ⟨as, hw⟩ := hw
  have key : ∀ (as : List WAct) (w0 : WState b l r ε S ι), Begins w0.d.p → wrun P Q size dec infer as w0 = some w → Begins w.d.p := by
    intro as
    induction as with
    | nil => intro w0 h0 h; cases h; exact h0
    | cons a as ih =>
      intro w0 h0 h
      simp only [wrun] at h
      cases hs : wstep P Q size dec infer a w0 with
      | none => simp [hs] at h
      | some w1 =>
        rw [hs] at h
        exact ih w1 (begins_wstep h0 hs) h
  exact key as _ (.inl rfl) hw

/-- A session with a reader over a dataset with the instances `xs`: all that C70 and C71 say, of the examples of the dataset. -/
theorem dataset_session (R : Rng) (hR : R.Lawful) (o : ReadOptions) (core : Machine α) (xs : List α) (hc : core.Renews xs)
    (hlen : xs.length < 2 ^ 64 - 1) (hb : 0 < b) (hl : l ≠ .padWarn) (hm : makeInstanceReader R o core = some r.base)
    (hP : 0 < P) (hQ : 0 < Q) (hnn : ∀ mem x, (infer mem (some x)).1 ≠ .ok none) (mem : ι) (w : WState b l r ε S ι)
    (hw : WReachable P Q size dec infer mem w) :
    ∃ ys, EpochOrder o (selected o xs) ys ∧
      Session (examples dec (batches b l ys)) (fun e => ∃ q ∈ batches b l ys, dec q = .error e) w.d.hist ∧
      (∀ i c o o', w.d.hist[i]? = some (.peek, o) → w.d.hist[i + 1]? = some (c, o') → o' = o) ∧
      (∃ ahead : List (Batch α), ahead.Sublist ((fruitful dec (batches b l ys)).drop (shown w.d.hist)) ∧
        w.d.bytes = bytesOf size ((fruitful dec (batches b l ys)).take (shown w.d.hist)) + bytesOf size ahead) ∧
      (∀ c, (c, .ok none) ∈ w.d.hist → w.d.bytes = bytesOf size (fruitful dec (batches b l ys))) ∧
      (∀ t ∈ w.told, ∃ zs mem', EpochOrder o (selected o xs) zs ∧ (infer mem' zs.head?).1 = t) ∧
      (∀ s s', .ok (some s) ∈ w.told → .ok (some s') ∈ w.told → s = s') ∧
      w.race = false ∧
      (w.d.p.consumer ≠ .idle → ∃ a w', wstep P Q size dec infer (.dact (.sys a)) w = some w') ∧
      (∀ t rest, w.told = t :: rest → ∃ zs, EpochOrder o (selected o xs) zs ∧ (infer mem zs.head?).1 = t ∧
        ∀ s, t = .ok (some s) → (infer mem zs.head?).2 = w.mem) ∧
      ((∀ t, w.told.head? = some t → ∃ s, t = .ok (some s)) → ∀ t ∈ w.told, ∃ s, t = .ok (some s)) := by
  have epoch := epoch_yields R hR o core xs hc hlen r.base hm
  have source : ∀ u : (batched b l r.base).σ, (u = (batched b l r.base).init ∨ ∃ v, u = (batched b l r.base).reset v) →
      ∃ ys, EpochOrder o (selected o xs) ys ∧ Source (batched b l r.base) u (batches b l ys) (.ok none) := by
    intro u hu
    have hz : u.2 = 0 := by rcases hu with rfl | ⟨v, rfl⟩ <;> rfl
    obtain ⟨ys, h1, h2⟩ := epoch u.1 (by
      rcases hu with rfl | ⟨v, rfl⟩
      · exact Or.inl rfl
      · exact Or.inr ⟨v.1, rfl⟩)
    refine ⟨ys, h1, ?_, fun i q hq => ((C24_batches_meaning b hb l ys).2 i q hq).1, Or.inl rfl⟩
    have := (Machine.batched_yields (m := r.base) b hb l hl h2).readsTo
    rw [show u = (u.1, 0) from Prod.ext rfl hz]
    exact this
  have hs : Sources (batched b l r.base) := by
    refine ⟨?_, fun u => ?_⟩
    · obtain ⟨ys, _, h⟩ := source _ (Or.inl rfl); exact ⟨_, _, h⟩
    · obtain ⟨ys, _, h⟩ := source _ (Or.inr ⟨u, rfl⟩); exact ⟨_, _, h⟩
  have first : ∀ s, (s = r.init ∨ ∃ u, s = r.reset u) → ∃ ys, EpochOrder o (selected o xs) ys ∧ r.Yields s ys (.ok none) := by
    intro s hs
    obtain ⟨ys, h1, h2⟩ := epoch (s, none) (by
      rcases hs with rfl | ⟨u, rfl⟩
      · exact .inl rfl
      · exact .inr ⟨(u, none), rfl⟩)
    exact ⟨ys, h1, yields_of_base h2⟩
  have he : Epochs r := by
    refine ⟨?_, fun u => ?_⟩
    · obtain ⟨ys, _, h⟩ := first _ (.inl rfl); exact ⟨ys, _, .inl rfl, h⟩
    · obtain ⟨ys, _, h⟩ := first _ (.inr ⟨u, rfl⟩); exact ⟨ys, _, .inl rfl, h⟩
  obtain ⟨bs, t, _, _, hi⟩ := winv hP hs he hnn hw
  have hei := hi.ei
  obtain ⟨h1, ⟨_, hp⟩, _⟩ := hi.ei
  obtain ⟨ys, ho, hsrc⟩ := source w.d.p.start (begins_wrun hw)
  obtain ⟨rfl, rfl⟩ := reads_unique hsrc.tail_ne h1.tail_ne hsrc.reads h1.reads
  have hsess := (session_of hi.si hp).1
  obtain ⟨ht, hsame⟩ := C71_first_instance_partial hP hs he hnn mem w hw
  refine ⟨ys, ho, ⟨hsess.next, ?_, ?_, hsess.defined, hsess.sticky⟩, fun i c o o' => peek_of hi.si hp i c o o', (bytes_of hi.si hei).1, (bytes_of hi.si hei).2, ?_, hsame, hi.race, ?_, ?_, fun h => attempts_all (C71_attempts_partial hP hs he hnn mem w hw) h⟩
  · intro i c hh
    exact ⟨(hsess.ends i c hh).1, fun e hx => (hsess.ends i c hh).2 e (.inr hx)⟩
  · intro i c e hh
    rcases hsess.error i c e hh with h | h
    · cases h
    · exact h
  · intro o' ho'
    obtain ⟨zs, t, ⟨htl, s, hs', hy⟩, h⟩ := ht o' ho'
    obtain ⟨zs', h1', h2'⟩ := first s hs'
    have : zs = zs' ∧ t = .ok none := by
      have a1 := hy.readsTo
      have a2 := h2'.readsTo
      have ne1 : ∀ x, t ≠ .ok (some x) := by rcases htl with rfl | ⟨e, rfl⟩ <;> simp
      exact reads_unique ne1 (by simp) a1 a2
    obtain ⟨rfl, rfl⟩ := this
    rcases h with ⟨_, e, h, _⟩ | ⟨_, mem', h⟩
    · cases h
    · exact ⟨zs, mem', h1', h⟩
  · exact C71_no_deadlock hP hQ hs he hnn mem w hw
  · intro t0 rest ht0
    obtain ⟨zs, t, ⟨htl, s, hs', hy⟩, h⟩ := (attempts_first (C71_attempts_partial hP hs he hnn mem w hw)).2 t0 rest ht0
    obtain ⟨zs', h1', h2'⟩ := first s hs'
    have ne1 : ∀ x, t ≠ .ok (some x) := by rcases htl with rfl | ⟨e, rfl⟩ <;> simp
    obtain ⟨rfl, rfl⟩ := reads_unique ne1 (by simp) hy.readsTo h2'.readsTo
    rcases h with ⟨_, e, h, _⟩ | ⟨_, h⟩
    · cases h
    · exact ⟨zs, h1', h⟩

/-- A session with the examples of a dataset, in terms of its batches. -/
theorem batchSession_of {α β ε : Type} {dec : Batch α → Except Err (Option ε)} (f : Batch α → Batch β) (good : Batch β → Bool) (bad : BadHandling)
    (holds : Batch β → ε → Prop) (qs : List (Batch α))
    (hd : ∀ q ∈ qs, if good (f q) || bad == .pad || bad == .padWarn then ∃ ex, dec q = .ok (some ex) ∧ holds (f q) ex
      else if bad = .error then dec q = .error .invalidInstance else dec q = .ok none)
    {hist : List (ReadCall × Res (Option ε))} (hs : Session (examples dec qs) (fun e => ∃ q ∈ qs, dec q = .error e) hist)
    (hp : ∀ i c o o', hist[i]? = some (.peek, o) → hist[i + 1]? = some (c, o') → o' = o) :
    BatchSession holds good bad (qs.map f) hist := by
  obtain ⟨e1, e2⟩ := examples_deliverable dec f good bad holds qs hd
  refine ⟨fun i c e h => e2 _ e (hs.next i c e h), hp, ?_, ?_, hs.defined, hs.sticky⟩
  · intro i c h
    obtain ⟨h1, h2⟩ := hs.ends i c h
    refine ⟨by rw [h1, e1], ?_⟩
    rintro rfl q' hq'
    obtain ⟨q, hq, rfl⟩ := List.mem_map.1 hq'
    cases hg : good (f q) with
    | true => rfl
    | false =>
      have := hd q hq
      rw [hg] at this
      exact absurd ⟨q, hq, this⟩ (h2 _)
  · intro i c e h
    obtain ⟨q, hq, hd'⟩ := hs.error i c e h
    have := hd q hq
    split at this
    · obtain ⟨ex, h, _⟩ := this
      rw [hd'] at h
      cases h
    · next hn =>
      simp only [Bool.or_eq_true, not_or, Bool.not_eq_true] at hn
      split at this
      · next hbad =>
        rw [hd'] at this
        cases this
        exact ⟨rfl, hbad, _, List.mem_map.2 ⟨q, hq, rfl⟩, hn.1.1⟩
      · rw [hd'] at this
        cases this

end

/-- All batches that are decoded are fruitful. -/
theorem fruitful_all {β ε : Type} {dec : β → Except Err (Option ε)} {qs : List β} (h : ∀ q ∈ qs, ∃ e, dec q = .ok (some e)) :
    fruitful dec qs = qs := by
  unfold fruitful
  exact List.filter_eq_self.2 fun q hq => by simpa using h q hq

theorem bytesOf_lines (qs : List (Batch Inst)) :
    bytesOf instanceBytes qs = lineBytes (qs.map fun q => q.map fun i => i.bits.getD []) := by
  unfold bytesOf lineBytes instanceBytes
  congr 1
  rw [List.flatMap_map, List.map_flatMap, List.map_flatMap]
  congr 1
  funext q
  simp [Batch.map]

/-! ## The list of stores -/

/-- The data store for a path. -/
def fileStore (memoryMap : Bool) (c : Compression) (u : Bytes) : Store :=
  .file u memoryMap (if c = .infer then inferCompression u else c)

theorem makeFile_spec (u : Bytes) (memoryMap : Bool) (c : Compression) (hne : u ≠ []) :
    makeFile u memoryMap c = if u.getLast? = some 47 ∨ u.getLast? = some 92 then .err .invalidArgument
      else .ok (fileStore memoryMap c u) := by
  unfold makeFile validateFilePath
  cases h : u.getLast? with
  | none => exact absurd (List.getLast?_eq_none_iff.1 h) hne
  | some x =>
    by_cases h1 : x = 47
    · subst h1; simp
    · by_cases h2 : x = 92
      · subst h2; simp
      · simp [h1, h2, fileStore]

theorem listStores_spec (pattern : Option (Bytes → Option Bool)) (predicate : Option (Bytes → Bool)) (memoryMap : Bool) (c : Compression) :
    ∀ (es : List FtsEntry) (us : List Bytes), listFiles pattern predicate es = .ok us → (∀ u ∈ us, u ≠ []) →
      ((∀ u ∈ us, u.getLast? ≠ some 47 ∧ u.getLast? ≠ some 92) →
        listStores pattern predicate memoryMap c es = .ok (us.map (fileStore memoryMap c))) ∧
      ((∃ u ∈ us, u.getLast? = some 47 ∨ u.getLast? = some 92) →
        listStores pattern predicate memoryMap c es = .err .invalidArgument) := by
  intro es
  induction es with
  | nil =>
    intro us h _
    cases h
    exact ⟨fun _ => rfl, fun ⟨u, hu, _⟩ => by cases hu⟩
  | cons e es ih =>
    intro us h hne
    cases e with
    | error => cases h
    | other p => exact ih us h hne
    | file p =>
      simp only [listFiles] at h
      simp only [listStores]
      cases hw : wanted pattern predicate p with
      | err e => rw [hw] at h; cases h
      | ub e => rw [hw] at h; cases h
      | ok keep =>
        rw [hw] at h
        cases hl : listFiles pattern predicate es with
        | err e => simp [hl] at h
        | ub e => simp [hl] at h
        | ok r =>
          simp only [hl, Res.ok.injEq] at h
          cases keep with
          | false =>
            simp at h
            subst h
            exact ih r hl hne
          | true =>
            simp at h
            subst h
            obtain ⟨i1, i2⟩ := ih r hl (fun u hu => hne u (by simp [hu]))
            have hm := makeFile_spec p memoryMap c (hne p (by simp))
            constructor
            · intro hb
              have hp := hb p (by simp)
              rw [hm, if_neg (by simp [hp.1, hp.2]), i1 (fun u hu => hb u (by simp [hu]))]
              rfl
            · intro hb
              by_cases hp : p.getLast? = some 47 ∨ p.getLast? = some 92
              · rw [hm, if_pos hp]
              · rw [hm, if_neg hp, i2 (by
                  obtain ⟨u, hu, hb⟩ := hb
                  rcases List.mem_cons.1 hu with rfl | hu
                  · exact absurd hb hp
                  · exact ⟨u, hu, hb⟩)]

end Mlio
