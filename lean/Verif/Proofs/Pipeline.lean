import Verif.Model.Pipeline
import Verif.Spec.Pipeline
import Verif.Proofs.Instances

/-! # Invariant of the parallel reader -/

namespace Mlio
open Spec Machine

/-- Every batch is decoded without an error. -/
def AllOk {β ε : Type} (dec : β → Except Err (Option ε)) (bs : List β) : Prop := ∀ b ∈ bs, ∃ r, dec b = .ok r

theorem examples_append {β ε : Type} (dec : β → Except Err (Option ε)) (bs cs : List β) (h : AllOk dec bs) :
    examples dec (bs ++ cs) = examples dec bs ++ examples dec cs := by
  induction bs with
  | nil => rfl
  | cons b bs ih =>
    have ih := ih (fun b hb => h b (List.mem_cons_of_mem _ hb))
    obtain ⟨r, hr⟩ := h b (List.mem_cons_self ..)
    cases r <;> simp [examples, hr, ih]

theorem examples_take_prefix {β ε : Type} (dec : β → Except Err (Option ε)) (bs : List β) (n : Nat)
    (h : AllOk dec (bs.take n)) : examples dec (bs.take n) <+: examples dec bs := by
  conv => rhs; rw [← List.take_append_drop n bs, examples_append dec _ _ h]
  exact List.prefix_append _ _

section
variable {α ε : Type} {m : Machine (Batch α)}

/-- Number of messages between the limiter and the end of the queue node. -/
def PState.inFlight (s : PState m ε) : Nat :=
  s.decoding.length + s.seq.length + s.qIn.length + s.busy.toList.length

/-- The numbers of the messages that have not passed the sequencer. -/
def PState.pending (s : PState m ε) : List Nat :=
  s.cached.toList.map (·.index) ++ (s.decoding.map (·.index) ++ s.seq.map (·.1))

/-- How much is left to do in the graph, apart from the batches not read. -/
def PState.work (s : PState m ε) : Nat :=
  (if s.active then 1 else 0) + 9 * s.cached.toList.length + 8 * s.decoding.length + 7 * s.seq.length +
  6 * s.qIn.length + 5 * s.busy.toList.length + (if s.qAsleep then 0 else 1) + (if s.status = .running then 2 else 0) +
  (match s.consumer with | .idle => 0 | .waiting => if s.cAsleep then 2 else 3 | .joining => 1)

theorem work_throw (s : PState m ε) (e : Err) : (s.throw e).work = s.work := rfl

/-- The invariant; `pos` is the number of batches read in this epoch. -/
structure PInv (P Q : Nat) (dec : Batch α → Except Err (Option ε)) (bs : List (Batch α)) (t : Res (Option (Batch α)))
    (pos : Nat) (s : PState m ε) : Prop where
  posle : pos ≤ bs.length
  src : (s.active = true ∨ s.status = .notStarted) → m.ReadsTo s.src (bs.drop pos) t
  ended : s.status ≠ .notStarted → s.active = false → s.cancelled = false → pos = bs.length ∧ t = .ok none
  fresh : s.status = .notStarted → s.active = false ∧ s.cached = none ∧ s.decoding = [] ∧ s.seq = [] ∧ s.qIn = [] ∧
    s.busy = none ∧ s.fill = [] ∧ s.read = [] ∧ s.consumer = .idle ∧ s.out = [] ∧ s.head = 0 ∧ pos = 0 ∧ s.cancelled = false
  cached : ∀ b, s.cached = some b → 0 < pos ∧ bs[pos - 1]? = some b
  decoding : ∀ b ∈ s.decoding, bs[b.index]? = some b
  seq : ∀ q ∈ s.seq, ∃ b, bs[q.1]? = some b ∧ dec b = .ok q.2
  headle : s.cancelled = false → s.head ≤ pos
  pending : s.cancelled = false → s.pending.Perm (List.range' s.head (pos - s.head))
  counteq : s.cancelled = false → s.count = s.inFlight
  flight : s.inFlight ≤ s.count
  countle : s.count ≤ P
  allok : s.cancelled = false → AllOk dec (bs.take s.head)
  queue : s.cancelled = false →
    delivered s.out ++ s.read ++ s.fill ++ (s.busy.toList ++ s.qIn).filterMap id = examples dec (bs.take s.head)
  pref : delivered s.out ++ s.read ++ s.fill <+: examples dec bs
  fillle : s.fill.length ≤ Q
  readle : s.read.length ≤ Q
  excFails : ∀ e, s.exc = some e → Fails dec bs t e
  excCancel : s.exc.isSome = true → s.cancelled = true
  cancel : s.cancelled = true → s.exc.isSome = true ∨ s.consumer = .joining
  joining : s.consumer = .joining → s.cancelled = true ∧ s.fill = [] ∧ s.read = [] ∧ s.status ≠ .notStarted
  faulted : s.status = .faulted → s.exc.isSome = true
  stopped : s.status = .stopped → s.exc = none
  complete : s.status = .stopped → s.consumer ≠ .joining →
    delivered s.out ++ s.read ++ s.fill = examples dec bs ∧ AllOk dec bs ∧ t = .ok none
  qsleep : s.qAsleep = true → s.status = .running → Q ≤ s.fill.length
  qbusy : s.qAsleep = true → ∃ e, s.busy = some (some e)
  csleep : s.cAsleep = true → s.consumer = .waiting ∧ s.status = .running ∧ s.fill = []
  waiting : s.consumer = .waiting → s.read = [] ∧ s.status ≠ .notStarted
  out : ∃ n, s.out = (delivered s.out).map (fun e => .ok (some e)) ∨
    (s.read = [] ∧ ((s.status = .stopped ∧ s.out = (delivered s.out).map (fun e => .ok (some e)) ++ List.replicate n (.ok none) ∧
        delivered s.out = examples dec bs ∧ AllOk dec bs ∧ t = .ok none) ∨
      (s.status = .faulted ∧ ∃ e, s.exc = some e ∧
        s.out = (delivered s.out).map (fun e => .ok (some e)) ++ List.replicate n (.err e))))

variable {P Q : Nat} {dec : Batch α → Except Err (Option ε)} {bs : List (Batch α)} {t : Res (Option (Batch α))}
  {pos : Nat} {s s' : PState m ε}

theorem PInv.init (st : m.σ) (hs : Source m st bs t) :
    PInv P Q dec bs t 0 ({ src := st, start := st } : PState m ε) where
  posle := Nat.zero_le _
  src := fun _ => hs.reads
  ended := fun h => absurd rfl h
  fresh := fun _ => by simp
  cached := by simp
  decoding := by simp
  seq := by simp
  headle := by simp
  pending := by simp [PState.pending]
  counteq := by simp [PState.inFlight]
  flight := by simp [PState.inFlight]
  countle := by simp
  allok := by simp [AllOk]
  queue := by simp [examples, delivered]
  pref := by simp [delivered]
  fillle := by simp
  readle := by simp
  excFails := by simp
  excCancel := by simp
  cancel := by simp
  joining := by simp
  faulted := by simp
  stopped := by simp
  complete := by simp
  qsleep := by simp
  qbusy := by simp
  csleep := by simp
  waiting := by simp
  out := ⟨0, Or.inl rfl⟩

theorem PInv.throw (h : PInv P Q dec bs t pos s) (hr : s.status = .running) (e : Err) (he : Fails dec bs t e) :
    PInv P Q dec bs t pos (s.throw e) where
  posle := h.posle
  src := h.src
  ended := by simp [PState.throw]
  fresh := fun hn => by simp [PState.throw, hr] at hn
  cached := h.cached
  decoding := h.decoding
  seq := h.seq
  headle := by simp [PState.throw]
  pending := by simp [PState.throw]
  counteq := by simp [PState.throw]
  flight := h.flight
  countle := h.countle
  allok := by simp [PState.throw]
  queue := by simp [PState.throw]
  pref := h.pref
  fillle := h.fillle
  readle := h.readle
  excFails := by
    intro e' h'
    simp only [PState.throw, Option.some.injEq] at h'
    cases hx : s.exc with
    | none => rw [hx] at h'; simp at h'; subst h'; exact he
    | some e'' => rw [hx] at h'; simp at h'; subst h'; exact h.excFails _ hx
  excCancel := by simp [PState.throw]
  cancel := by simp [PState.throw]
  joining := fun hj => ⟨rfl, (h.joining hj).2⟩
  faulted := by simp [PState.throw]
  stopped := fun hn => by simp [PState.throw, hr] at hn
  complete := fun hn => by simp [PState.throw, hr] at hn
  qsleep := h.qsleep
  qbusy := h.qbusy
  csleep := h.csleep
  waiting := h.waiting
  out := by
    obtain ⟨n, ho⟩ := h.out
    refine ⟨n, ?_⟩
    rcases ho with ho | ⟨_, ho | ho⟩
    · exact Or.inl ho
    · rw [hr] at ho; simp at ho
    · rw [hr] at ho; simp at ho

theorem PInv.produce (hs : Source m s.start bs t) (h : PInv P Q dec bs t pos s) (hp : pProduce s = some s') :
    ∃ pos', PInv P Q dec bs t pos' s' ∧ s'.work + 10 * (bs.length - pos') < s.work + 10 * (bs.length - pos) := by
  unfold pProduce at hp
  split at hp
  case isFalse => simp at hp
  rename_i hc
  obtain ⟨hr, ha, hcn⟩ := hc
  have hcn : s.cached = none := by simpa using hcn
  have hy := h.src (Or.inl ha)
  cases hd : bs.drop pos with
  | nil =>
    rw [hd] at hy
    obtain ⟨i, hi⟩ := hy.read_nil
    have hlen : pos = bs.length := by
      have := congrArg List.length hd
      have := h.posle
      simp at *
      omega
    rw [hi] at hp
    rcases hs.tail with ht | ⟨e, ht⟩
    · subst ht
      simp only [Option.some.injEq] at hp
      subst hp
      exact ⟨pos, { h with
        src := fun hx => by simp [hr] at hx
        ended := fun _ _ _ => ⟨hlen, rfl⟩
        fresh := fun hx => by simp [hr] at hx }, by simp [PState.work, ha]⟩
    · subst ht
      simp only [Option.some.injEq] at hp
      subst hp
      exact ⟨pos, { h.throw hr e (Or.inl rfl) with
        src := fun hx => by simp [PState.throw, hr] at hx
        ended := by simp [PState.throw]
        fresh := fun hx => by simp [PState.throw, hr] at hx }, by
        rw [work_throw]
        simp [PState.work, ha]⟩
  | cons b rest =>
    rw [hd] at hy
    obtain ⟨i, hi, hy'⟩ := hy.read_cons
    rw [hi] at hp
    simp only [Option.some.injEq] at hp
    subst hp
    have hlt : pos < bs.length := by
      have := congrArg List.length hd
      simp at this
      omega
    have hb : bs[pos]? = some b := by
      have := congrArg (·[0]?) hd
      simpa using this
    refine ⟨pos + 1, { h with
      posle := hlt
      src := fun _ => ?_
      ended := fun _ hx => by simp [ha] at hx
      fresh := fun hx => by simp [hr] at hx
      cached := ?_
      headle := fun hx => Nat.le_succ_of_le (h.headle hx)
      pending := ?_ }, by simp [PState.work, hcn]; omega⟩
    · have : bs.drop (pos + 1) = rest := by rw [← List.drop_drop, hd]; rfl
      rw [this]
      exact hy'
    · intro b' hb'
      simp at hb'
      subst hb'
      exact ⟨by omega, by simpa using hb⟩
    · intro hx
      have h1 := h.pending hx
      have h2 := h.headle hx
      simp only [PState.pending, hcn] at h1 ⊢
      simp only [Option.toList, List.map_nil, List.nil_append, List.map_cons, List.cons_append] at h1 ⊢
      rw [hs.index _ _ hb, show pos + 1 - s.head = (pos - s.head) + 1 by omega, List.range'_concat]
      simp only [Nat.one_mul]
      rw [show s.head + (pos - s.head) = pos by omega]
      exact ((h1.cons pos).trans (List.perm_append_singleton _ _).symm)

theorem PInv.send (h : PInv P Q dec bs t pos s) (hs : Source m s.start bs t) (hp : pSend P s = some s') :
    PInv P Q dec bs t pos s' := by
  unfold pSend at hp
  split at hp
  case isFalse => simp at hp
  rename_i hc
  cases hcd : s.cached with
  | none => simp [hcd] at hp
  | some b =>
    rw [hcd] at hp
    simp only [Option.some.injEq] at hp
    subst hp
    have hb := h.cached b hcd
    have hbi : b.index = pos - 1 := hs.index _ _ hb.2
    exact { h with
      fresh := fun hx => by simp [hc.1] at hx
      cached := by simp
      decoding := fun b' hb' => by
        simp only [List.mem_append, List.mem_singleton] at hb'
        rcases hb' with hb' | hb'
        · exact h.decoding b' hb'
        · subst hb'; rw [hbi]; exact hb.2
      pending := fun hx => by
        have h1 := h.pending hx
        simp only [PState.pending, hcd, Option.toList, List.map_cons, List.map_nil, List.map_append, List.nil_append,
          List.cons_append, List.append_assoc] at h1 ⊢
        exact List.perm_middle.trans h1
      counteq := fun hx => by
        have := h.counteq hx
        simp only [PState.inFlight, List.length_append, List.length_singleton] at this ⊢
        omega
      flight := by
        have := h.flight
        simp only [PState.inFlight, List.length_append, List.length_singleton] at this ⊢
        omega
      countle := hc.2 }

theorem perm_eraseIdx {β : Type} (l : List β) (i : Nat) (b : β) (h : l[i]? = some b) : l.Perm (b :: l.eraseIdx i) := by
  induction l generalizing i with
  | nil => simp at h
  | cons a l ih =>
    cases i with
    | zero => simp at h; subst h; simp
    | succ i =>
      simp only [List.getElem?_cons_succ] at h
      exact ((ih i h).cons a).trans (List.Perm.swap ..)

theorem PInv.decodeStep (h : PInv P Q dec bs t pos s) {i : Nat} (hp : pDecode dec i s = some s') :
    PInv P Q dec bs t pos s' := by
  unfold pDecode at hp
  split at hp
  case isFalse => simp at hp
  rename_i hr
  cases hi : s.decoding[i]? with
  | none => simp [hi] at hp
  | some b =>
    rw [hi] at hp
    simp only at hp
    have hlt : i < s.decoding.length := (List.getElem?_eq_some_iff.1 hi).1
    have hmem := List.mem_of_getElem? hi
    have hbs := h.decoding b hmem
    have hlen : (s.decoding.eraseIdx i).length + 1 = s.decoding.length := by
      rw [List.length_eraseIdx_of_lt hlt]; omega
    cases hd : dec b with
    | error e =>
      rw [hd] at hp
      simp only [Option.some.injEq] at hp
      subst hp
      exact { h.throw hr e (Or.inr ⟨b, List.mem_of_getElem? hbs, hd⟩) with
        fresh := fun hx => by simp [PState.throw, hr] at hx
        decoding := fun b' hb' => h.decoding b' (List.mem_of_mem_eraseIdx hb')
        pending := by simp [PState.throw]
        counteq := by simp [PState.throw]
        flight := by
          have := h.flight
          simp only [PState.inFlight, PState.throw] at this ⊢
          omega }
    | ok r =>
      rw [hd] at hp
      simp only [Option.some.injEq] at hp
      subst hp
      exact { h with
        fresh := fun hx => by simp [hr] at hx
        decoding := fun b' hb' => h.decoding b' (List.mem_of_mem_eraseIdx hb')
        seq := fun q hq => by
          simp only [List.mem_append, List.mem_singleton] at hq
          rcases hq with hq | hq
          · exact h.seq q hq
          · subst hq; exact ⟨b, hbs, hd⟩
        pending := fun hx => by
          refine List.Perm.trans ?_ (h.pending hx)
          simp only [PState.pending]
          apply List.Perm.append_left
          rw [List.map_append, List.map_cons, List.map_nil, ← List.append_assoc]
          refine (List.perm_append_singleton _ _).trans ?_
          have := (perm_eraseIdx s.decoding i b hi).map (·.index)
          exact (this.append_right (s.seq.map (·.1))).symm
        counteq := fun hx => by
          have := h.counteq hx
          simp only [PState.inFlight, List.length_append, List.length_singleton] at this ⊢
          omega
        flight := by
          have := h.flight
          simp only [PState.inFlight, List.length_append, List.length_singleton] at this ⊢
          omega }

theorem filter_length_lt {β : Type} {f : β → Bool} {l : List β} {q : β} (hq : q ∈ l) (hf : f q = false) :
    (l.filter f).length + 1 ≤ l.length := by
  have h1 := List.length_filter_le f l
  by_cases h2 : (l.filter f).length = l.length
  · have := List.length_filter_eq_length_iff.1 h2 q hq
    rw [hf] at this
    simp at this
  · omega

/-- Removing the messages with number `k` from a list without repetitions removes exactly one. -/
theorem perm_filter_ne {β : Type} (l : List (Nat × β)) (k : Nat) (q : Nat × β)
    (hn : (l.map (·.1)).Nodup) (hq : q ∈ l) (hk : q.1 = k) :
    l.Perm (q :: l.filter (fun q => q.1 ≠ k)) := by
  induction l with
  | nil => simp at hq
  | cons a l ih =>
    rw [List.map_cons, List.nodup_cons] at hn
    rcases List.mem_cons.1 hq with rfl | hq
    · have : (q :: l).filter (fun q => decide (q.1 ≠ k)) = l := by
        rw [List.filter_cons, if_neg (by simp [hk]), List.filter_eq_self]
        intro x hx
        simp only [ne_eq, decide_eq_true_eq]
        intro hxk
        apply hn.1
        rw [hk, ← hxk]
        exact List.mem_map_of_mem hx
      rw [this]
    · have hne : a.1 ≠ k := by
        intro hak
        apply hn.1
        rw [hak, ← hk]
        exact List.mem_map_of_mem hq
      rw [List.filter_cons, if_pos (by simpa using hne)]
      exact ((ih hn.2 hq).cons a).trans (List.Perm.swap ..)

theorem PInv.forward (h : PInv P Q dec bs t pos s) (hp : pForward s = some s') : PInv P Q dec bs t pos s' := by
  unfold pForward at hp
  split at hp
  case isFalse => simp at hp
  rename_i hr
  cases hf : s.seq.find? (fun q => q.1 = s.head) with
  | none => simp [hf] at hp
  | some q =>
    rw [hf] at hp
    simp only [Option.some.injEq] at hp
    subst hp
    have hq := List.mem_of_find?_eq_some hf
    have hqk : q.1 = s.head := by simpa using List.find?_some hf
    obtain ⟨b, hb1, hb2⟩ := h.seq q hq
    rw [hqk] at hb1
    have hlt := (List.getElem?_eq_some_iff.1 hb1).1
    have hshort := filter_length_lt (f := fun q : Nat × Option ε => decide (q.1 ≠ s.head)) hq (by simp [hqk])
    have key : s.cancelled = false → s.head < pos ∧
        (s.cached.toList.map (·.index) ++ (s.decoding.map (·.index) ++
          (s.seq.filter (fun q => q.1 ≠ s.head)).map (·.1))).Perm (List.range' (s.head + 1) (pos - (s.head + 1))) ∧
        (s.seq.filter (fun q => q.1 ≠ s.head)).length + 1 = s.seq.length := by
      intro hx
      have h1 := h.pending hx
      have hnd : (s.seq.map (·.1)).Nodup := by
        have := h1.nodup_iff.2 List.nodup_range'
        unfold PState.pending at this
        exact (List.nodup_append.1 (List.nodup_append.1 this).2.1).2.1
      have hpos : s.head < pos := by
        have : s.head ∈ List.range' s.head (pos - s.head) := h1.mem_iff.1 (by
          unfold PState.pending
          simp only [List.mem_append]
          exact Or.inr (Or.inr (hqk ▸ List.mem_map_of_mem hq)))
        rw [List.mem_range'_1] at this
        omega
      have hperm := perm_filter_ne s.seq s.head q hnd hq hqk
      refine ⟨hpos, ?_, by have := hperm.length_eq; simpa using this.symm⟩
      have h2 : s.pending.Perm (s.head :: (s.cached.toList.map (·.index) ++ (s.decoding.map (·.index) ++
          (s.seq.filter (fun q => q.1 ≠ s.head)).map (·.1)))) := by
        unfold PState.pending
        have := (hperm.map (·.1)).append_left (s.cached.toList.map (·.index) ++ s.decoding.map (·.index))
        simp only [List.append_assoc, List.map_cons, hqk] at this
        refine this.trans ?_
        rw [← List.append_assoc]
        refine List.perm_middle.trans ?_
        rw [List.append_assoc]
      have h3 := h2.symm.trans h1
      rw [show pos - s.head = (pos - (s.head + 1)) + 1 by omega, List.range'_succ] at h3
      exact h3.cons_inv
    have htake : bs.take (s.head + 1) = bs.take s.head ++ [b] := by
      rw [List.take_add_one, hb1]
      rfl
    exact { h with
      fresh := fun hx => by simp [hr] at hx
      seq := fun q' hq' => h.seq q' (List.mem_filter.1 hq').1
      headle := fun hx => (key hx).1
      pending := fun hx => (key hx).2.1
      counteq := fun hx => by
        have := h.counteq hx
        have := (key hx).2.2
        simp only [PState.inFlight, List.length_append, List.length_singleton] at *
        omega
      flight := by
        have := h.flight
        simp only [PState.inFlight, List.length_append, List.length_singleton] at *
        omega
      allok := fun hx => by
        simp only
        rw [htake]
        intro b' hb'
        rcases List.mem_append.1 hb' with hb' | hb'
        · exact h.allok hx b' hb'
        · simp at hb'; subst hb'; exact ⟨_, hb2⟩
      queue := fun hx => by
        have h1 := h.queue hx
        simp only
        rw [htake, examples_append dec _ _ (h.allok hx), ← h1]
        have e1 : examples dec [b] = [q.2].filterMap id := by
          cases hq2 : q.2 <;> simp [examples, hb2, hq2]
        rw [e1, ← List.append_assoc s.busy.toList, List.filterMap_append]
        simp only [List.append_assoc] }

theorem PInv.qStart (h : PInv P Q dec bs t pos s) (hp : pQStart s = some s') : PInv P Q dec bs t pos s' := by
  unfold pQStart at hp
  split at hp
  case isFalse => simp at hp
  rename_i hc
  have hb : s.busy = none := by simpa using hc.2
  cases hq : s.qIn with
  | nil => simp [hq] at hp
  | cons r rs =>
    rw [hq] at hp
    simp only [Option.some.injEq] at hp
    subst hp
    exact { h with
      fresh := fun hx => by simp [hc.1] at hx
      counteq := fun hx => by
        have := h.counteq hx
        simp [PState.inFlight, hb, hq] at this ⊢
        omega
      flight := by
        have := h.flight
        simp [PState.inFlight, hb, hq] at this ⊢
        omega
      queue := fun hx => by
        have := h.queue hx
        simpa [hb, hq] using this
      qbusy := fun hx => by
        obtain ⟨e, he⟩ := h.qbusy hx
        rw [hb] at he
        simp at he }

theorem PInv.qStep (h : PInv P Q dec bs t pos s) (hp : pQStep Q s = some s') : PInv P Q dec bs t pos s' := by
  unfold pQStep at hp
  split at hp
  case isFalse => simp at hp
  rename_i hc
  obtain ⟨hr, hqa⟩ := hc
  have hqa : s.qAsleep = false := by simpa using hqa
  cases hb : s.busy with
  | none => simp [hb] at hp
  | some r =>
    have hfl := h.flight
    simp only [PState.inFlight, hb, Option.toList, List.length_singleton] at hfl
    cases r with
    | none =>
      rw [hb] at hp
      simp only [Option.some.injEq] at hp
      subst hp
      exact { h with
        fresh := fun hx => by simp [hr] at hx
        counteq := fun hx => by
          have := h.counteq hx
          simp [PState.inFlight, hb] at this ⊢
          omega
        flight := by
          simp [PState.inFlight]
          omega
        countle := by have := h.countle; simp only; omega
        queue := fun hx => by
          have := h.queue hx
          simpa [hb] using this
        qbusy := fun hx => by simp [hqa] at hx }
    | some e =>
      rw [hb] at hp
      simp only at hp
      split at hp
      · rename_i hfull
        split at hp
        · rename_i hcan
          simp only [Option.some.injEq] at hp
          subst hp
          exact { h with
            fresh := fun hx => by simp [hr] at hx
            counteq := fun hx => by simp [hcan] at hx
            flight := by
              simp [PState.inFlight]
              omega
            countle := by have := h.countle; simp only; omega
            queue := fun hx => by simp [hcan] at hx
            qbusy := fun hx => by simp [hqa] at hx }
        · rename_i hcan
          have hcan : s.cancelled = false := by simpa using hcan
          simp only [Option.some.injEq] at hp
          subst hp
          have hqueue := h.queue hcan
          simp only [hb, Option.toList, List.cons_append, List.nil_append, List.filterMap_cons, id] at hqueue
          exact { h with
            fresh := fun hx => by simp [hr] at hx
            counteq := fun hx => by
              have := h.counteq hx
              simp [PState.inFlight, hb] at this ⊢
              omega
            flight := by
              simp [PState.inFlight]
              omega
            countle := by have := h.countle; simp only; omega
            queue := fun hx => by
              rw [← hqueue]
              simp
            pref := by
              refine List.IsPrefix.trans ?_ (examples_take_prefix dec bs s.head (h.allok hcan))
              rw [← hqueue]
              exact ⟨s.qIn.filterMap id, by simp⟩
            fillle := by simp only [List.length_append, List.length_singleton]; omega
            joining := fun hx => by
              have := (h.joining hx).1
              rw [hcan] at this
              simp at this
            complete := fun hx => by simp [hr] at hx
            qsleep := fun hx => by simp [hqa] at hx
            qbusy := fun hx => by simp [hqa] at hx
            csleep := by simp }
      · rename_i hfull
        simp only [Option.some.injEq] at hp
        subst hp
        exact { h with
          fresh := fun hx => by simp [hr] at hx
          counteq := fun hx => by have := h.counteq hx; simpa [PState.inFlight, hb] using this
          flight := by have := h.flight; simpa [PState.inFlight, hb] using this
          queue := fun hx => by have := h.queue hx; simpa [hb] using this
          qsleep := fun _ _ => by simpa using hfull
          qbusy := fun _ => ⟨e, rfl⟩ }

theorem PInv.finish (h : PInv P Q dec bs t pos s) (hs : Source m s.start bs t) (hP : 0 < P) (hp : pFinish P s = some s') :
    PInv P Q dec bs t pos s' := by
  unfold pFinish at hp
  split at hp
  case isFalse => simp at hp
  rename_i hc
  obtain ⟨hr, hq⟩ := hc
  simp only [Option.some.injEq] at hp
  subst hp
  have hout : ∃ n : Nat, s.out = (delivered s.out).map (fun e => .ok (some e)) := by
    obtain ⟨n, ho⟩ := h.out
    rcases ho with ho | ⟨_, ho | ho⟩
    · exact ⟨0, ho⟩
    · rw [hr] at ho; simp at ho
    · rw [hr] at ho; simp at ho
  have hcomplete : s.exc = none → s.consumer ≠ .joining →
      delivered s.out ++ s.read ++ s.fill = examples dec bs ∧ AllOk dec bs ∧ t = .ok none := by
    intro hx hj
    have hcan : s.cancelled = false := by
      cases hcc : s.cancelled with
      | false => rfl
      | true =>
        rcases h.cancel hcc with h1 | h1
        · simp [hx] at h1
        · exact absurd h1 hj
    simp only [PState.waitOver, hcan, Bool.false_eq_true, if_false, PState.quiet, Bool.and_eq_true, Bool.not_eq_true'] at hq
    obtain ⟨⟨⟨⟨⟨q1, q2⟩, q3⟩, q4⟩, q5⟩, q6⟩ := hq
    have q3 : s.decoding = [] := by simpa using q3
    have q5 : s.qIn = [] := by simpa using q5
    have q6 : s.busy = none := by simpa using q6
    have hperm := h.pending hcan
    have hhead := h.headle hcan
    have hcnt := h.counteq hcan
    -- nothing is pending
    have hdone : s.head = pos := by
      by_cases hlt : s.head < pos
      · exfalso
        have hm : s.head ∈ s.pending := hperm.mem_iff.2 (by rw [List.mem_range'_1]; omega)
        simp only [PState.pending, q3, List.map_nil, List.nil_append, List.mem_append] at hm
        rcases hm with hm | hm
        · cases hcd : s.cached with
          | none => simp [hcd] at hm
          | some b =>
            simp only [hcd, Option.toList, List.map_cons, List.map_nil, List.mem_singleton] at hm
            have hbi : b.index = pos - 1 := hs.index _ _ (h.cached b hcd).2
            have hseq : s.seq = [] := by
              have hlen := hperm.length_eq
              simp only [PState.pending, hcd, q3, Option.toList, List.map_cons, List.map_nil, List.nil_append,
                List.cons_append, List.length_cons, List.length_map, List.length_range'] at hlen
              exact List.eq_nil_of_length_eq_zero (by omega)
            have : s.count < P := by
              rw [hcnt]
              simp [PState.inFlight, q3, q5, q6, hseq]
              exact hP
            simp [hcd, this] at q2
        · obtain ⟨q, hq1, hq2⟩ := List.mem_map.1 hm
          have : (s.seq.any (fun q => decide (q.1 = s.head))) = true :=
            List.any_eq_true.2 ⟨q, hq1, by simpa using hq2⟩
          rw [this] at q4
          simp at q4
      · omega
    have hcd : s.cached = none := by
      cases hcd : s.cached with
      | none => rfl
      | some b =>
        exfalso
        have := hperm.length_eq
        simp [PState.pending, hcd, hdone] at this
    have hact : s.active = false := by
      cases ha : s.active with
      | false => rfl
      | true => simp [ha, hcd] at q1
    obtain ⟨e1, e2⟩ := h.ended (by simp [hr]) hact hcan
    have hqueue := h.queue hcan
    have hok := h.allok hcan
    rw [hdone, e1, List.take_length] at hqueue hok
    simp only [q5, q6, Option.toList, List.append_nil, List.filterMap_nil] at hqueue
    exact ⟨hqueue, hok, e2⟩
  exact { h with
    src := fun hx => by
      rcases hx with hx | hx
      · exact h.src (Or.inl hx)
      · exfalso
        simp only at hx
        split at hx <;> simp at hx
    ended := fun _ => h.ended (by simp [hr])
    fresh := fun hx => by
      exfalso
      simp only at hx
      split at hx <;> simp at hx
    joining := fun hx => by
      obtain ⟨j1, j2, j3, j4⟩ := h.joining hx
      refine ⟨j1, j2, j3, ?_⟩
      simp only
      split <;> simp
    faulted := fun hx => by
      simp only at hx
      split at hx
      · assumption
      · simp at hx
    stopped := fun hx => by
      simp only at hx
      split at hx
      · simp at hx
      · rename_i hn
        simpa using hn
    complete := fun hx => by
      simp only at hx
      split at hx
      · simp at hx
      · rename_i hn
        exact hcomplete (by simpa using hn)
    qsleep := fun _ hx => by
      simp only at hx
      split at hx <;> simp at hx
    csleep := by simp
    waiting := fun hx => by
      refine ⟨(h.waiting hx).1, ?_⟩
      simp only
      split <;> simp
    out := by
      obtain ⟨n, ho⟩ := hout
      exact ⟨n, Or.inl ho⟩ }

theorem PInv.dropDecode (h : PInv P Q dec bs t pos s) (hr : s.status = .running) (hc : s.cancelled = true) (i : Nat) :
    PInv P Q dec bs t pos { s with decoding := s.decoding.eraseIdx i } :=
  { h with
    fresh := fun hx => by simp [hr] at hx
    decoding := fun b hb => h.decoding b (List.mem_of_mem_eraseIdx hb)
    pending := fun hx => by simp [hc] at hx
    counteq := fun hx => by simp [hc] at hx
    flight := by
      have := h.flight
      have := List.length_eraseIdx_le s.decoding i
      simp only [PState.inFlight] at *
      omega }

theorem PInv.dropQueue (h : PInv P Q dec bs t pos s) (hr : s.status = .running) (hc : s.cancelled = true) :
    PInv P Q dec bs t pos { s with qIn := [] } :=
  { h with
    fresh := fun hx => by simp [hr] at hx
    counteq := fun hx => by simp [hc] at hx
    flight := by
      have := h.flight
      simp [PState.inFlight] at *
      omega
    queue := fun hx => by simp [hc] at hx }

theorem delivered_snoc (out : List (Res (Option ε))) (e : ε) : delivered (out ++ [.ok (some e)]) = delivered out ++ [e] := by
  simp [delivered]

theorem delivered_none (out : List (Res (Option ε))) : delivered (out ++ [.ok none]) = delivered out := by
  simp [delivered]

theorem delivered_err (out : List (Res (Option ε))) (e : Err) : delivered (out ++ [.err e]) = delivered out := by
  simp [delivered]

/-- Taking an example out of the read queue. -/
theorem PInv.pop (h : PInv P Q dec bs t pos s) (hn : s.status ≠ .notStarted) (hca : s.cAsleep = false)
    (hj : s.consumer ≠ .joining)
    (hread : s.read = [] → s.status = .stopped ∧ s.fill = []) : PInv P Q dec bs t pos (pPop s) := by
  cases hrd : s.read with
  | nil =>
    rw [show pPop s = { s with consumer := .idle, out := s.out ++ [.ok none] } by simp [pPop, hrd]]
    obtain ⟨h1, h2⟩ := hread hrd
    obtain ⟨c1, c2, c3⟩ := h.complete h1 hj
    rw [hrd, h2] at c1
    simp only [List.append_nil] at c1
    exact { h with
      fresh := fun hx => absurd hx hn
      queue := fun hx => by simp only; rw [delivered_none]; exact h.queue hx
      pref := by simp only; rw [delivered_none]; exact h.pref
      cancel := fun hx => by
        rcases h.cancel hx with h3 | h3
        · exact Or.inl h3
        · exact absurd h3 hj
      joining := by simp
      complete := fun _ _ => by simp only; rw [delivered_none]; exact h.complete h1 hj
      csleep := fun hx => by simp [hca] at hx
      waiting := by simp
      out := by
        simp only
        rw [delivered_none]
        obtain ⟨n, ho⟩ := h.out
        rcases ho with ho | ⟨_, ho | ho⟩
        · exact ⟨1, Or.inr ⟨hrd, Or.inl ⟨h1, by conv => { lhs; rw [ho] }; rfl, c1, c2, c3⟩⟩⟩
        · refine ⟨n + 1, Or.inr ⟨hrd, Or.inl ⟨h1, ?_, c1, c2, c3⟩⟩⟩
          conv => lhs; rw [ho.2.1]
          rw [List.append_assoc, List.replicate_succ']
        · rw [h1] at ho
          simp at ho }
  | cons e es =>
    rw [show pPop s = { s with consumer := .idle, read := es, out := s.out ++ [.ok (some e)] } by simp [pPop, hrd]]
    have hout : s.out = (delivered s.out).map (fun e => .ok (some e)) := by
      obtain ⟨n, ho⟩ := h.out
      rcases ho with ho | ⟨ho, _⟩
      · exact ho
      · rw [hrd] at ho; simp at ho
    exact { h with
      fresh := fun hx => absurd hx hn
      queue := fun hx => by
        have := h.queue hx
        simp only
        rw [delivered_snoc, ← this, hrd]
        simp
      pref := by
        have := h.pref
        simp only
        rw [delivered_snoc]
        rw [hrd] at this
        simpa using this
      readle := by
        have := h.readle
        rw [hrd] at this
        simp at this ⊢
        omega
      cancel := fun hx => by
        rcases h.cancel hx with h3 | h3
        · exact Or.inl h3
        · exact absurd h3 hj
      joining := by simp
      complete := fun hx _ => by
        have := h.complete hx hj
        simp only
        rw [delivered_snoc, ← this.1, hrd]
        refine ⟨by simp, this.2⟩
      csleep := fun hx => by simp [hca] at hx
      waiting := by simp
      out := by
        refine ⟨0, Or.inl ?_⟩
        simp only
        rw [delivered_snoc, List.map_append]
        conv => lhs; rw [hout]
        rfl }

theorem PInv.callRead (h : PInv P Q dec bs t pos s) (hp : pCallRead s = some s') : PInv P Q dec bs t pos s' := by
  unfold pCallRead at hp
  split at hp
  case isFalse => simp at hp
  rename_i hi
  have hca : s.cAsleep = false := by
    cases hca : s.cAsleep with
    | false => rfl
    | true => have := (h.csleep hca).1; rw [hi] at this; simp at this
  split at hp
  · rename_i he
    have he : s.read = [] := by simpa using he
    split at hp
    · rename_i hn
      simp only [Option.some.injEq] at hp
      subst hp
      obtain ⟨f1, f2, f3, f4, f5, f6, f7, f8, f9, f10, f11, f12, hnc⟩ := h.fresh hn
      exact { h with
        src := fun _ => h.src (Or.inr hn)
        ended := by simp
        fresh := by simp
        cancel := fun hx => by simp [hnc] at hx
        joining := by simp
        faulted := by simp
        stopped := by simp
        complete := by simp
        qsleep := fun hx => by
          obtain ⟨e, he⟩ := h.qbusy hx
          rw [f6] at he
          simp at he
        csleep := fun hx => by simp [hca] at hx
        waiting := fun _ => ⟨he, by simp⟩
        out := ⟨0, Or.inl (by rw [f10]; rfl)⟩ }
    · rename_i hn
      simp only [Option.some.injEq] at hp
      subst hp
      exact { h with
        fresh := fun hx => absurd hx hn
        cancel := fun hx => by
          rcases h.cancel hx with h3 | h3
          · exact Or.inl h3
          · rw [hi] at h3; simp at h3
        joining := by simp
        complete := fun hx _ => h.complete hx (by simp [hi])
        csleep := fun hx => by simp [hca] at hx
        waiting := fun _ => ⟨he, hn⟩ }
  · rename_i he
    have he : s.read ≠ [] := by simpa using he
    simp only [Option.some.injEq] at hp
    subst hp
    refine h.pop ?_ hca (by simp [hi]) (fun hx => absurd hx he)
    intro hn
    exact he (h.fresh hn).2.2.2.2.2.2.2.1

theorem PInv.cStep (h : PInv P Q dec bs t pos s) (hp : pCStep s = some s') : PInv P Q dec bs t pos s' := by
  unfold pCStep at hp
  split at hp
  case isFalse => simp at hp
  rename_i hi
  obtain ⟨hi, hca⟩ := hi
  have hca : s.cAsleep = false := by simpa using hca
  obtain ⟨hread, hns⟩ := h.waiting hi
  split at hp
  · rename_i hpred
    cases hx : (if s.status = .faulted then s.exc else none) with
    | some e =>
      rw [hx] at hp
      simp only [Option.some.injEq] at hp
      subst hp
      have hst : s.status = .faulted := by
        split at hx
        · assumption
        · simp at hx
      rw [if_pos hst] at hx
      exact { h with
        fresh := fun hx => absurd hx hns
        queue := fun hx => by simp only; rw [delivered_err]; exact h.queue hx
        pref := by simp only; rw [delivered_err]; exact h.pref
        cancel := fun _ => Or.inl (by simp [hx])
        joining := by simp
        complete := fun hx => by simp [hst] at hx
        csleep := fun hx => by simp [hca] at hx
        waiting := by simp
        out := by
          simp only
          rw [delivered_err]
          obtain ⟨n, ho⟩ := h.out
          rcases ho with ho | ⟨_, ho | ho⟩
          · exact ⟨1, Or.inr ⟨hread, Or.inr ⟨hst, e, hx, by conv => { lhs; rw [ho] }; rfl⟩⟩⟩
          · rw [hst] at ho; simp at ho
          · obtain ⟨_, e', he', ho⟩ := ho
            rw [hx] at he'
            simp only [Option.some.injEq] at he'
            subst he'
            refine ⟨n + 1, Or.inr ⟨hread, Or.inr ⟨hst, e, hx, ?_⟩⟩⟩
            conv => lhs; rw [ho]
            rw [List.append_assoc, List.replicate_succ'] }
    | none =>
      rw [hx] at hp
      simp only [Option.some.injEq] at hp
      subst hp
      have hnf : s.status ≠ .faulted := by
        intro hst
        rw [if_pos hst] at hx
        have := h.faulted hst
        rw [hx] at this
        simp at this
      have hexc : s.cancelled = true → s.exc.isSome = true := fun hc => by
        rcases h.cancel hc with h3 | h3
        · exact h3
        · rw [hi] at h3; simp at h3
      have hswap : PInv P Q dec bs t pos { s with read := s.fill, fill := s.read, qAsleep := false, consumer := .idle } :=
        { h with
          fresh := fun hx => absurd hx hns
          queue := fun hx => by
            have := h.queue hx
            simp only [hread, List.append_nil] at this ⊢
            exact this
          pref := by
            have := h.pref
            simp only [hread, List.append_nil] at this ⊢
            exact this
          fillle := h.readle
          readle := h.fillle
          cancel := fun hx => Or.inl (hexc hx)
          joining := by simp
          complete := fun hx _ => by
            have := h.complete hx (by simp [hi])
            simp only [hread, List.append_nil] at this ⊢
            exact this
          qsleep := by simp
          qbusy := by simp
          csleep := fun hx => by simp [hca] at hx
          waiting := by simp
          out := by
            obtain ⟨n, ho⟩ := h.out
            rcases ho with ho | ⟨_, ho | ho⟩
            · exact ⟨n, Or.inl ho⟩
            · refine ⟨n, Or.inr ⟨?_, Or.inl ho⟩⟩
              have := (h.complete ho.1 (by simp [hi])).1
              rw [hread, ho.2.2.1] at this
              simpa using this
            · exact absurd ho.1 hnf }
      have e : pPop { s with read := s.fill, fill := s.read, qAsleep := false } =
          pPop { s with read := s.fill, fill := s.read, qAsleep := false, consumer := .idle } := by
        cases hf : s.fill <;> simp [pPop]
      rw [e]
      refine hswap.pop hns hca (by simp) ?_
      intro hf
      simp only at hf
      refine ⟨?_, hread⟩
      rcases hpred with hp | hp
      · simp only
        cases hst : s.status <;> simp_all
      · simp [hf] at hp
  · rename_i hpred
    simp only [Option.some.injEq] at hp
    subst hp
    simp only [ne_eq, not_or, Decidable.not_not, Bool.not_eq_true'] at hpred
    have hf : s.fill = [] := by simpa using hpred.2
    exact { h with csleep := fun _ => ⟨hi, hpred.1, hf⟩ }

theorem PInv.callReset (hs : ∀ u, ∃ bs t, Source m (m.reset u) bs t) (hs0 : Source m s.start bs t)
    (h : PInv P Q dec bs t pos s) (hp : pCallReset s = some s') :
    ∃ bs t pos, Source m s'.start bs t ∧ PInv P Q dec bs t pos s' := by
  unfold pCallReset at hp
  split at hp
  case isFalse => simp at hp
  rename_i hi
  split at hp
  · simp only [Option.some.injEq] at hp
    subst hp
    obtain ⟨bs', t', hs'⟩ := hs s.src
    exact ⟨bs', t', 0, hs', PInv.init _ hs'⟩
  · rename_i hn
    simp only [Option.some.injEq] at hp
    subst hp
    refine ⟨bs, t, pos, hs0, ?_⟩
    exact { h with
      ended := by simp
      fresh := fun hx => absurd hx hn
      headle := by simp
      pending := by simp
      counteq := by simp
      allok := by simp
      queue := by simp
      pref := by
        refine List.IsPrefix.trans ?_ h.pref
        simp only [List.append_nil, List.append_assoc]
        exact List.prefix_append _ _
      fillle := by simp
      readle := by simp
      excCancel := by simp
      cancel := by simp
      joining := fun _ => ⟨rfl, rfl, rfl, hn⟩
      complete := fun _ hx => by simp at hx
      qsleep := by simp
      qbusy := by simp
      csleep := fun hx => by
        have := (h.csleep hx).1
        rw [hi] at this
        simp at this
      waiting := by simp
      out := by
        obtain ⟨n, ho⟩ := h.out
        refine ⟨n, ?_⟩
        rcases ho with ho | ⟨_, ho⟩
        · exact Or.inl ho
        · exact Or.inr ⟨rfl, ho⟩ }

theorem PInv.cJoin (hs : ∀ u, ∃ bs t, Source m (m.reset u) bs t) (hp : pCJoin s = some s') :
    ∃ bs t pos, Source m s'.start bs t ∧ PInv P Q dec bs t pos s' := by
  unfold pCJoin at hp
  split at hp
  case isFalse => simp at hp
  simp only [Option.some.injEq] at hp
  subst hp
  obtain ⟨bs', t', hs'⟩ := hs s.src
  exact ⟨bs', t', 0, hs', PInv.init _ hs'⟩

/-- No action but the end of a reset changes the start of the epoch. -/
theorem start_eq {a : PAct} (hp : pstep P Q dec a s = some s') :
    s'.start = s.start ∨ ((a = .callReset ∨ a = .cJoin) ∧ ∃ u, s'.start = m.reset u) := by
  cases a with
  | produce =>
    simp only [pstep, pProduce] at hp
    split at hp
    · split at hp <;> simp at hp <;> subst hp <;> exact Or.inl rfl
    · simp at hp
  | send =>
    simp only [pstep, pSend] at hp
    split at hp
    · split at hp <;> simp at hp; subst hp; exact Or.inl rfl
    · simp at hp
  | decode i =>
    simp only [pstep, pDecode] at hp
    split at hp
    · split at hp
      · split at hp <;> simp at hp <;> subst hp <;> exact Or.inl rfl
      · simp at hp
    · simp at hp
  | forward =>
    simp only [pstep, pForward] at hp
    split at hp
    · split at hp <;> simp at hp; subst hp; exact Or.inl rfl
    · simp at hp
  | qStart =>
    simp only [pstep, pQStart] at hp
    split at hp
    · split at hp <;> simp at hp; subst hp; exact Or.inl rfl
    · simp at hp
  | qStep =>
    simp only [pstep, pQStep] at hp
    split at hp
    · split at hp
      · simp at hp
      · simp at hp; subst hp; exact Or.inl rfl
      · split at hp
        · split at hp <;> simp at hp <;> subst hp <;> exact Or.inl rfl
        · simp at hp; subst hp; exact Or.inl rfl
    · simp at hp
  | dropDecode i =>
    simp only [pstep] at hp
    split at hp <;> simp at hp
    subst hp; exact Or.inl rfl
  | dropQueue =>
    simp only [pstep] at hp
    split at hp <;> simp at hp
    subst hp; exact Or.inl rfl
  | finish =>
    simp only [pstep, pFinish] at hp
    split at hp <;> simp at hp
    subst hp; exact Or.inl rfl
  | cStep =>
    simp only [pstep, pCStep] at hp
    split at hp
    · split at hp
      · split at hp
        · simp at hp; subst hp; exact Or.inl rfl
        · simp at hp; subst hp
          left
          unfold pPop
          split <;> rfl
      · simp at hp; subst hp; exact Or.inl rfl
    · simp at hp
  | cJoin =>
    simp only [pstep, pCJoin] at hp
    split at hp <;> simp at hp
    subst hp; exact Or.inr ⟨by simp, _, rfl⟩
  | callRead =>
    simp only [pstep, pCallRead] at hp
    split at hp
    · split at hp
      · split at hp <;> simp at hp <;> subst hp <;> exact Or.inl rfl
      · simp at hp; subst hp
        left
        unfold pPop
        split <;> rfl
    · simp at hp
  | callReset =>
    simp only [pstep, pCallReset] at hp
    split at hp
    · split at hp <;> simp at hp <;> subst hp
      · exact Or.inr ⟨by simp, _, rfl⟩
      · exact Or.inl rfl
    · simp at hp

theorem PInv.step (hP : 0 < P) (hs : ∀ u, ∃ bs t, Source m (m.reset u) bs t) (hs0 : Source m s.start bs t)
    (h : PInv P Q dec bs t pos s) {a : PAct} (hp : pstep P Q dec a s = some s') :
    ∃ bs t pos, Source m s'.start bs t ∧ PInv P Q dec bs t pos s' := by
  by_cases hj : a = .callReset ∨ a = .cJoin
  · rcases hj with rfl | rfl
    · exact h.callReset hs hs0 hp
    · exact PInv.cJoin hs hp
  · have hst : s'.start = s.start := by
      rcases start_eq hp with h1 | ⟨h1, _⟩
      · exact h1
      · exact absurd h1 hj
    rw [hst]
    cases a with
    | produce =>
      obtain ⟨p, h', _⟩ := h.produce hs0 hp
      exact ⟨bs, t, p, hs0, h'⟩
    | send => exact ⟨bs, t, pos, hs0, h.send hs0 hp⟩
    | decode i => exact ⟨bs, t, pos, hs0, h.decodeStep hp⟩
    | forward => exact ⟨bs, t, pos, hs0, h.forward hp⟩
    | qStart => exact ⟨bs, t, pos, hs0, h.qStart hp⟩
    | qStep => exact ⟨bs, t, pos, hs0, h.qStep hp⟩
    | dropDecode i =>
      simp only [pstep] at hp
      split at hp
      · rename_i hc
        simp only [Option.some.injEq] at hp
        subst hp
        exact ⟨bs, t, pos, hs0, h.dropDecode hc.1 hc.2.1 i⟩
      · simp at hp
    | dropQueue =>
      simp only [pstep] at hp
      split at hp
      · rename_i hc
        simp only [Option.some.injEq] at hp
        subst hp
        exact ⟨bs, t, pos, hs0, h.dropQueue hc.1 hc.2.1⟩
      · simp at hp
    | finish => exact ⟨bs, t, pos, hs0, h.finish hs0 hP hp⟩
    | cStep => exact ⟨bs, t, pos, hs0, h.cStep hp⟩
    | callRead => exact ⟨bs, t, pos, hs0, h.callRead hp⟩
    | callReset => exact absurd (Or.inl rfl) hj
    | cJoin => exact absurd (Or.inr rfl) hj

/-- Every action that is not the user's choice leaves less to do. -/
theorem PInv.work_lt (hs0 : Source m s.start bs t) (h : PInv P Q dec bs t pos s) {a : PAct} (ha : a.isCall = false)
    (hp : pstep P Q dec a s = some s') (hj : a ≠ .cJoin) (hP : 0 < P) :
    ∃ pos', PInv P Q dec bs t pos' s' ∧ s'.work + 10 * (bs.length - pos') < s.work + 10 * (bs.length - pos) := by
  cases a with
  | produce => exact h.produce hs0 hp
  | send =>
    refine ⟨pos, h.send hs0 hp, ?_⟩
    simp only [pstep, pSend] at hp
    split at hp
    case isFalse => simp at hp
    split at hp <;> simp at hp
    rename_i hc
    subst hp
    simp [PState.work, hc]
    omega
  | decode i =>
    refine ⟨pos, h.decodeStep hp, ?_⟩
    simp only [pstep, pDecode] at hp
    split at hp
    case isFalse => simp at hp
    split at hp
    case h_2 => simp at hp
    rename_i hi
    have hlt : i < s.decoding.length := (List.getElem?_eq_some_iff.1 hi).1
    have hlen : (s.decoding.eraseIdx i).length + 1 = s.decoding.length := by
      rw [List.length_eraseIdx_of_lt hlt]; omega
    split at hp <;> simp only [Option.some.injEq] at hp <;> subst hp <;> try rw [work_throw]
    all_goals
      simp only [PState.work, List.length_append, List.length_singleton]
      omega
  | forward =>
    refine ⟨pos, h.forward hp, ?_⟩
    simp only [pstep, pForward] at hp
    split at hp
    case isFalse => simp at hp
    split at hp <;> simp only [Option.some.injEq, reduceCtorEq] at hp
    rename_i q hf
    subst hp
    have hq := List.mem_of_find?_eq_some hf
    have hqk : q.1 = s.head := by simpa using List.find?_some hf
    have hshort := filter_length_lt (f := fun q : Nat × Option ε => decide (q.1 ≠ s.head)) hq (by simp [hqk])
    simp only [PState.work, List.length_append, List.length_singleton]
    omega
  | qStart =>
    refine ⟨pos, h.qStart hp, ?_⟩
    simp only [pstep, pQStart] at hp
    split at hp
    case isFalse => simp at hp
    rename_i hc
    have hb : s.busy = none := by simpa using hc.2
    split at hp <;> simp only [Option.some.injEq, reduceCtorEq] at hp
    rename_i hq
    subst hp
    simp [PState.work, hb, hq]
    omega
  | qStep =>
    refine ⟨pos, h.qStep hp, ?_⟩
    simp only [pstep, pQStep] at hp
    split at hp
    case isFalse => simp at hp
    rename_i hc
    have hqa : s.qAsleep = false := by simpa using hc.2
    split at hp
    · simp at hp
    · rename_i hb
      simp at hp; subst hp
      simp [PState.work, hb]
    · rename_i hb
      split at hp
      · split at hp
        · simp at hp; subst hp
          simp [PState.work, hb]
        · simp at hp; subst hp
          simp only [PState.work, hb, hqa]
          cases s.consumer <;> cases s.cAsleep <;> simp <;> omega
      · simp at hp; subst hp
        simp [PState.work, hb, hqa]
  | dropDecode i =>
    simp only [pstep] at hp
    split at hp
    case isFalse => simp at hp
    rename_i hc
    simp only [Option.some.injEq] at hp
    subst hp
    refine ⟨pos, h.dropDecode hc.1 hc.2.1 i, ?_⟩
    have hlen : (s.decoding.eraseIdx i).length + 1 = s.decoding.length := by
      rw [List.length_eraseIdx_of_lt hc.2.2]; omega
    simp [PState.work]
    omega
  | dropQueue =>
    simp only [pstep] at hp
    split at hp
    case isFalse => simp at hp
    rename_i hc
    simp only [Option.some.injEq] at hp
    subst hp
    refine ⟨pos, h.dropQueue hc.1 hc.2.1, ?_⟩
    have : 0 < s.qIn.length := List.length_pos_iff.2 (by simpa using hc.2.2)
    simp [PState.work]
    omega
  | finish =>
    refine ⟨pos, h.finish hs0 hP hp, ?_⟩
    simp only [pstep, pFinish] at hp
    split at hp
    case isFalse => simp at hp
    rename_i hc
    simp only [Option.some.injEq] at hp
    subst hp
    simp only [PState.work, hc.1]
    cases s.exc.isSome <;> cases s.consumer <;> cases s.cAsleep <;> simp <;> omega
  | cStep =>
    refine ⟨pos, h.cStep hp, ?_⟩
    simp only [pstep, pCStep] at hp
    split at hp
    case isFalse => simp at hp
    rename_i hc
    have hca : s.cAsleep = false := by simpa using hc.2
    split at hp
    · split at hp
      · simp only [Option.some.injEq] at hp
        subst hp
        simp [PState.work, hc.1, hca]
      · simp only [Option.some.injEq] at hp
        subst hp
        unfold pPop
        split <;> simp only [PState.work, hc.1, hca] <;> cases s.qAsleep <;> simp <;> omega
    · simp only [Option.some.injEq] at hp
      subst hp
      simp [PState.work, hc.1, hca]
  | cJoin => exact absurd rfl hj
  | callRead => simp [PAct.isCall] at ha
  | callReset => simp [PAct.isCall] at ha

/-- While the consumer is inside a call, something can happen, other than a body of the source node after cancellation. -/
theorem PInv.progress_before (hP : 0 < P) (hQ : 0 < Q) (hs0 : Source m s.start bs t) (h : PInv P Q dec bs t pos s)
    (hc : s.consumer ≠ .idle) : ∃ a s', a.isCall = false ∧ (a = .produce → s.cancelled = false) ∧ pstep P Q dec a s = some s' := by
  by_cases hr : s.status = .running
  · -- the queue node's body can go on, or the consumer can
    by_cases hsl : s.consumer = .waiting ∧ s.cAsleep = false
    · cases hx : pCStep s with
      | some s' => exact ⟨.cStep, s', rfl, nofun, hx⟩
      | none =>
        exfalso
        unfold pCStep at hx
        rw [if_pos ⟨hsl.1, by simp [hsl.2]⟩] at hx
        split at hx
        · split at hx <;> simp at hx
        · simp at hx
    · have hfill : s.fill = [] := by
        cases hcc : s.consumer with
        | idle => exact absurd hcc hc
        | waiting =>
          have : s.cAsleep = true := by
            cases hca : s.cAsleep with
            | true => rfl
            | false => exact absurd ⟨hcc, hca⟩ hsl
          exact (h.csleep this).2.2
        | joining => exact (h.joining hcc).2.1
      have hqa : s.qAsleep = false := by
        cases hqa : s.qAsleep with
        | false => rfl
        | true =>
          have := h.qsleep hqa hr
          rw [hfill] at this
          simp at this
          omega
      cases hb : s.busy with
      | some r =>
        cases r with
        | none => exact ⟨.qStep, _, rfl, nofun, by simp only [pstep, pQStep]; rw [if_pos ⟨hr, by simp [hqa]⟩, hb]⟩
        | some e =>
          by_cases hcan : s.cancelled = true
          · exact ⟨.qStep, _, rfl, nofun, by
              simp only [pstep, pQStep]
              rw [if_pos ⟨hr, by simp [hqa]⟩, hb]
              simp only
              rw [if_pos (by rw [hfill]; exact hQ), if_pos hcan]⟩
          · exact ⟨.qStep, _, rfl, nofun, by
              simp only [pstep, pQStep]
              rw [if_pos ⟨hr, by simp [hqa]⟩, hb]
              simp only
              rw [if_pos (by rw [hfill]; exact hQ), if_neg hcan]⟩
      | none =>
        cases hq : s.qIn with
        | cons r rs =>
          exact ⟨.qStart, _, rfl, nofun, by simp only [pstep, pQStart]; rw [if_pos ⟨hr, by simp [hb]⟩, hq]⟩
        | nil =>
          cases hd : s.decoding with
          | cons b l =>
            cases hdec : dec b with
            | ok r => exact ⟨.decode 0, _, rfl, nofun, by simp only [pstep, pDecode]; rw [if_pos hr, hd]; simp only [List.getElem?_cons_zero]; rw [hdec]⟩
            | error e => exact ⟨.decode 0, _, rfl, nofun, by simp only [pstep, pDecode]; rw [if_pos hr, hd]; simp only [List.getElem?_cons_zero]; rw [hdec]⟩
          | nil =>
            by_cases hw : s.waitOver P = true
            · exact ⟨.finish, _, rfl, nofun, by simp only [pstep, pFinish]; rw [if_pos ⟨hr, hw⟩]⟩
            · have hcan : s.cancelled = false := by
                cases hcan : s.cancelled with
                | false => rfl
                | true => exfalso; apply hw; simp [PState.waitOver, hcan, hd, hq, hb]
              simp [PState.waitOver, hcan, PState.quiet, hd, hq, hb] at hw
              -- some task can run
              by_cases h1 : s.active = true ∧ s.cached = none
              · have hy := h.src (Or.inl h1.1)
                cases hdr : bs.drop pos with
                | nil =>
                  rw [hdr] at hy
                  obtain ⟨i, hi⟩ := hy.read_nil
                  rcases hs0.tail with ht | ⟨e, ht⟩
                  · subst ht
                    exact ⟨.produce, _, rfl, fun _ => hcan, by
                      simp only [pstep, pProduce]
                      rw [if_pos ⟨hr, h1.1, by simp [h1.2]⟩, hi]⟩
                  · subst ht
                    exact ⟨.produce, _, rfl, fun _ => hcan, by
                      simp only [pstep, pProduce]
                      rw [if_pos ⟨hr, h1.1, by simp [h1.2]⟩, hi]⟩
                | cons b l =>
                  rw [hdr] at hy
                  obtain ⟨i, hi, _⟩ := hy.read_cons
                  exact ⟨.produce, _, rfl, fun _ => hcan, by
                    simp only [pstep, pProduce]
                    rw [if_pos ⟨hr, h1.1, by simp [h1.2]⟩, hi]⟩
              · by_cases h2 : s.count < P ∧ ∃ b, s.cached = some b
                · obtain ⟨h2, b, h3⟩ := h2
                  exact ⟨.send, _, rfl, nofun, by simp only [pstep, pSend]; rw [if_pos ⟨hr, h2⟩, h3]⟩
                · cases hf : s.seq.find? (fun q => q.1 = s.head) with
                  | some q => exact ⟨.forward, _, rfl, nofun, by simp only [pstep, pForward]; rw [if_pos hr, hf]⟩
                  | none =>
                    exfalso
                    rw [List.find?_eq_none] at hf
                    obtain ⟨r, hq1⟩ := hw (by
                      cases hcd : s.cached with
                      | none =>
                        left
                        cases ha : s.active with
                        | false => rfl
                        | true => exact absurd ⟨ha, hcd⟩ h1
                      | some b => simp) (by
                      cases hcd' : s.cached with
                      | none => simp
                      | some b =>
                        right
                        have : ¬ s.count < P := fun hlt => h2 ⟨hlt, b, hcd'⟩
                        omega)
                    exact hf _ hq1 (by simp)
  · cases hcc : s.consumer with
    | idle => exact absurd hcc hc
    | joining =>
      have hn := (h.joining hcc).2.2.2
      have hst : s.status = .stopped ∨ s.status = .faulted := by cases hst : s.status <;> simp_all
      exact ⟨.cJoin, _, rfl, nofun, by simp only [pstep, pCJoin]; rw [if_pos ⟨hcc, hst⟩]⟩
    | waiting =>
      have hca : s.cAsleep = false := by
        cases hca : s.cAsleep with
        | false => rfl
        | true => exact absurd (h.csleep hca).2.1 hr
      cases hx : pCStep s with
      | some s' => exact ⟨.cStep, s', rfl, nofun, hx⟩
      | none =>
        exfalso
        unfold pCStep at hx
        rw [if_pos ⟨hcc, by simp [hca]⟩] at hx
        split at hx
        · split at hx <;> simp at hx
        · simp at hx

/-- While the consumer is inside a call, something can happen. -/
theorem PInv.progress (hP : 0 < P) (hQ : 0 < Q) (hs0 : Source m s.start bs t) (h : PInv P Q dec bs t pos s)
    (hc : s.consumer ≠ .idle) : ∃ a s', a.isCall = false ∧ pstep P Q dec a s = some s' := by
  obtain ⟨a, s', h1, _, h2⟩ := h.progress_before hP hQ hs0 hc
  exact ⟨a, s', h1, h2⟩

end
end Mlio
