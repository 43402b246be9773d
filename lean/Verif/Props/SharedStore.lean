import Verif.Proofs.SharedStore
import Verif.Props.Races

/-! # C88: data stores shared by threads -/

namespace Mlio
open Spec

/-- The process before threads use the data stores: names that are computed may have been computed. -/
structure Fresh (stores : Nat → AnyStore) (s : StoreState) : Prop where
  ids : ∀ k, s.ids k = [] ∨ s.ids k = (stores k).id
  idle : ∀ t, s.todo t = []
  names : s.names = []
  opened : s.opened = []

theorem Fresh.inv {stores : Nat → AnyStore} {s : StoreState} (h : Fresh stores s) : SharedInv stores s :=
  ⟨h.ids, fun t => by rw [h.idle t]; exact .nil, fun k name hm => by rw [h.names] at hm; cases hm⟩

/-- **C88** — without races.  Any number of threads that call `id` and `open_read` of any number of data stores, in any order, do not
race, if the program is careful: no data store is written in Python, the name of each data store in memory and of each versioned
object has been asked for before (`named`), and a SageMaker pipe is opened from one thread only, on a channel on which a pipe had been
opened before. -/
theorem C88_careful_partial (stores : Nat → AnyStore) (info : Bool) (known : List Bytes) (owner : Nat → Nat) (s0 s : StoreState)
    (as : List StoreAct) (h0 : Fresh stores s0) (named : ∀ k, NameComputed (stores k) → s0.ids k = (stores k).id)
    (htable : ∀ p ∈ known, p ∈ s0.table)
    (hcalls : ∀ t c, StoreAct.call t c ∈ as → CarefulCall stores known owner t c)
    (hrun : storeRun stores info s0 as = some s) (cell : StoreCell) : ¬ StoreRace stores s cell :=
  tame_no_race (tame_run as s0 s
    ⟨fun k hk => by rw [named k hk]; exact id_ne_nil hk, htable, fun t m hm => by rw [h0.idle t] at hm; cases hm⟩ hcalls hrun) cell

/-- **C88** — in particular files and objects without a version can be used by any threads in any way. -/
theorem C88_given (stores : Nat → AnyStore) (info : Bool) (s0 s : StoreState) (as : List StoreAct) (h0 : Fresh stores s0)
    (hgiven : ∀ k, (∃ p m c, stores k = .file p m c) ∨ ∃ uri c, stores k = .object uri [] c)
    (hrun : storeRun stores info s0 as = some s) (cell : StoreCell) : ¬ StoreRace stores s cell := by
  refine C88_careful_partial stores info [] (fun _ => 0) s0 s as h0 ?_ (fun p hp => by cases hp) ?_ hrun cell
  · intro k hk
    rcases hgiven k with ⟨p, m, c, e⟩ | ⟨uri, c, e⟩ <;> simp [e, NameComputed] at hk
  · intro t c _
    cases c with
    | id k => rcases hgiven k with ⟨p, m, c, e⟩ | ⟨uri, c, e⟩ <;> simp [CarefulCall, e]
    | openRead k => rcases hgiven k with ⟨p, m, c, e⟩ | ⟨uri, c, e⟩ <;> simp [CarefulCall, e]

/-- **C88** — if reads and writes of a name were atomic: whatever the threads do, each call of `id` gives the name of the data store
(of C83), for all data stores but those written in Python. -/
theorem C88_name (stores : Nat → AnyStore) (info : Bool) (s0 s : StoreState) (as : List StoreAct) (h0 : Fresh stores s0)
    (hrun : storeRun stores info s0 as = some s) (k : Nat) (name : Bytes) (hk : ∀ x, stores k ≠ .python x)
    (h : (k, name) ∈ s.names) : name = (stores k).id :=
  (shared_run as s0 s h0.inv hrun).names k name h hk

/-- **C88** — the number given to a pipe that one thread opens is used for the first stream, and only for that. -/
theorem C88_number (stores : Nat → AnyStore) (info : Bool) (s0 s : StoreState) (as : List StoreAct) (h0 : Fresh stores s0)
    (o k : Nat) (path : Bytes) (c : Compression) (hk : stores k = .pipe path c) (hone : ∀ t, .call t (.openRead k) ∈ as → t = o)
    (hrun : storeRun stores info s0 as = some s) :
    let given := (s.opened.filter fun p => p.1 == k).map (·.2)
    given = [] ∨ ∃ later, given = s0.fifo k :: List.replicate later none := by
  have hI : FifoInv o k (s0.fifo k) s0 :=
    ⟨(fun t m hm => by rw [h0.idle t] at hm; cases hm),
      .inl ⟨by simp [fifoNumbers, h0.opened], rfl, fun n => by rw [h0.idle o]; simp⟩⟩
  rcases (fifo_run hk as s0 s h0.inv hI hone hrun).phase with ⟨h, _⟩ | ⟨h, _⟩ | ⟨h, _⟩
  · exact .inl h
  · exact .inl h
  · exact .inr h

/-- **C88 is false** for names that are computed: two threads that call `id` of a data store in memory, or of a versioned object, whose
name nobody has asked for, race on it. -/
theorem C88_id_violated (stores : Nat → AnyStore) (info : Bool) (s0 : StoreState) (h0 : Fresh stores s0) (k t u : Nat) (htu : t ≠ u)
    (hk : NameComputed (stores k)) (hnew : s0.ids k = []) :
    ∃ s, storeRun stores info s0 [.call t (.id k), .call u (.id k), .run t] = some s ∧ StoreRace stores s (.id k) := by
  have hm : idMicros (stores k) k = [.check k, .use k] := by
    cases hs : stores k <;> simp [hs, NameComputed] at hk <;> rfl
  have hstep : microStep stores s0 (.check k) [.use k] = (s0, [.fill k, .use k]) := by
    cases hs : stores k <;> simp [hs, NameComputed] at hk <;> simp [microStep, hs, hnew, hk]
  refine ⟨{ s0 with todo := fun v => if v = t then [.fill k, .use k] else if v = u then [.check k, .use k] else s0.todo v }, ?_,
    t, u, .fill k, .check k, true, false, false, false, htu, ?_, ?_, rfl, rfl, .inl rfl, by simp⟩
  · simp only [storeRun, storeStep, h0.idle, callMicros, hm, if_pos, Option.bind_some, Ne.symm htu, if_false, htu]
    have hstep' : ∀ s : StoreState, s.ids = s0.ids → microStep stores s (.check k) [.use k] = (s, [.fill k, .use k]) := by
      intro s hs
      cases hsk : stores k <;> simp [hsk, NameComputed] at hk <;> simp [microStep, hsk, hs, hnew, hk]
    rw [hstep']
    · simp only [Option.some.injEq]
      congr 1
      funext v
      by_cases hv : v = t
      · simp [hv]
      · simp [hv, h0.idle]
    · rfl
  · simp
  · simp [Ne.symm htu]

/-- **C88 is false** for pipes: two threads that open the same pipe race on the number that was given to it, and both streams are
constructed with it. -/
theorem C88_pipe_violated (info : Bool) (path : Bytes) (c : Compression) (n : Nat) (t u : Nat) (htu : t ≠ u) :
    ∃ s s', storeRun (fun _ => .pipe path c) info { fifo := fun _ => some n }
        [.call t (.openRead 0), .call u (.openRead 0), .run t, .run u] = some s ∧
      StoreRace (fun _ => .pipe path c) s (.fifo 0) ∧
      storeRun (fun _ => .pipe path c) info s [.run t, .run u, .run t, .run u] = some s' ∧
      s'.opened = [(0, some n), (0, some n)] := by
  have hut : ¬ u = t := fun h => htu h.symm
  refine ⟨{ fifo := fun _ => some n, todo := fun v => if v = u then [.clearFifo 0 (some n)] else if v = t then [.clearFifo 0 (some n)] else [] },
    { fifo := fun j => if j = 0 then none else some n, table := [path], todo := fun _ => [], opened := [(0, some n), (0, some n)] }, ?_, ⟨t, u, .clearFifo 0 (some n), .clearFifo 0 (some n), true, true, false, false, htu, ?_, ?_,
      rfl, rfl, .inl rfl, by simp⟩, ?_, rfl⟩
  · simp only [storeRun, storeStep, callMicros, if_pos, Option.bind_some, htu, hut, if_false, microStep, Option.some.injEq]
    congr 1
    funext v
    by_cases hv : v = u
    · simp [hv]
    · by_cases hv' : v = t <;> simp [hv, hv']
  · simp [htu]
  · simp
  · simp only [storeRun, storeStep, if_pos, Option.bind_some, htu, hut, if_false, microStep]
    simp only [Option.some.injEq]
    congr 1
    · funext j; by_cases hj : j = 0 <;> simp [hj]
    · simp
    · funext v
      by_cases hv : v = u
      · simp [hv]
      · by_cases hv' : v = t <;> simp [hv, hv']

/-- **C88 is false** for the table of channels: threads that open different pipes on different channels race on it, when the channels are
new. -/
theorem C88_table_violated (info : Bool) (path path' : Bytes) (c c' : Compression) (t u : Nat) (htu : t ≠ u) :
    let stores : Nat → AnyStore := fun k => if k = 0 then .pipe path c else .pipe path' c'
    ∃ s, storeRun stores info { fifo := fun _ => none }
        [.call t (.openRead 0), .call u (.openRead 1), .run t, .run u, .run t, .run u] = some s ∧ StoreRace stores s .table := by
  intro stores
  have hut : ¬ u = t := fun h => htu h.symm
  refine ⟨{ fifo := fun _ => none, todo := fun v => if v = u then [.channel 1 none] else if v = t then [.channel 0 none] else [] }, ?_,
    t, u, .channel 0 none, .channel 1 none, true, true, false, false, htu, ?_, ?_, by simp [StoreMicro.access, stores],
    by simp [StoreMicro.access, stores], .inl rfl, by simp⟩
  · simp only [storeRun, storeStep, callMicros, if_pos, Option.bind_some, htu, hut, if_false, microStep, stores, Option.some.injEq,
      Nat.one_ne_zero]
    congr 1
    · funext j; simp
    · funext v
      by_cases hv : v = u
      · simp [hv]
      · by_cases hv' : v = t <;> simp [hv, hv']
  · simp [htu]
  · simp

/-- **C88 is false** for data stores written in Python: the string is written with the lock of the interpreter held and read without;
while one thread reads the name of its data store, another may write the name of its own, and the first gets that. -/
theorem C88_python_violated (info : Bool) (name name' : Bytes) (t u : Nat) (htu : t ≠ u) :
    let stores : Nat → AnyStore := fun k => if k = 0 then .python name else .python name'
    ∃ s s', storeRun stores info { fifo := fun _ => none } [.call t (.id 0), .call u (.id 1), .run t] = some s ∧
      StoreRace stores s .python ∧
      storeRun stores info s [.run u, .run t] = some s' ∧ s'.names = [(0, name')] := by
  intro stores
  have hut : ¬ u = t := fun h => htu h.symm
  refine ⟨{ fifo := fun _ => none, python := name, todo := fun v => if v = t then [.use 0] else if v = u then [.callPython 1, .use 1] else [] },
    { fifo := fun _ => none, python := name', names := [(0, name')], todo := fun v => if v = t then [] else if v = u then [.use 1] else [] }, ?_,
    ⟨t, u, .use 0, .callPython 1, false, true, false, true, htu, ?_, ?_, by simp [StoreMicro.access, stores], rfl, .inr rfl, by simp⟩,
    ?_, rfl⟩
  · simp only [storeRun, storeStep, callMicros, idMicros, if_pos, Option.bind_some, htu, hut, if_false, microStep, stores,
      Option.some.injEq, Nat.one_ne_zero, AnyStore.id]
    congr 1
    funext v
    by_cases hv : v = u
    · simp [hv, hut]
    · by_cases hv' : v = t <;> simp [hv, hv']
  · simp
  · simp [hut]
  · simp only [storeRun, storeStep, if_pos, Option.bind_some, htu, hut, if_false, microStep, stores,
      Option.some.injEq, Nat.one_ne_zero, AnyStore.id, StoreState.nameOf, List.nil_append]
    congr 1
    funext v
    by_cases hv : v = u
    · simp [hv, hut]
    · by_cases hv' : v = t <;> simp [hv, hv']

/-! ## Examples -/

/-- A data store in memory, a file, a versioned object and a pipe. -/
def someStores : Nat → AnyStore
  | 0 => .memory 0x1000 3 .none
  | 1 => .file [97] true .none
  | 2 => .object [115] [118] .none
  | _ => .pipe [112] .none

-- The hypotheses of `C88_careful_partial` are met by a process where two threads use all of them at once.
example : ∃ s, storeRun someStores true
    { ids := fun k => if k = 0 ∨ k = 2 then (someStores k).id else [], fifo := fun _ => some 2, table := [[112]] }
    [.call 1 (.id 0), .call 2 (.openRead 0), .run 1, .call 3 (.openRead 3), .run 2, .run 3, .run 1, .run 2, .call 1 (.id 2), .run 3,
      .run 1, .run 3] = some s ∧ s.opened = [(3, some 2)] ∧ s.names.length = 2 :=
  ⟨_, rfl, rfl, rfl⟩

example : Fresh someStores { ids := fun k => if k = 0 ∨ k = 2 then (someStores k).id else [], fifo := fun _ => some 2, table := [[112]] } :=
  ⟨fun k => by by_cases h : k = 0 ∨ k = 2 <;> simp [h], fun _ => rfl, rfl, rfl⟩

example : ∀ t c, StoreAct.call t c ∈ ([.call 1 (.id 0), .call 2 (.openRead 0), .run 1, .call 3 (.openRead 3)] : List StoreAct) →
    CarefulCall someStores [[112]] (fun _ => 3) t c := by
  intro t c h
  simp only [List.mem_cons, StoreAct.call.injEq, reduceCtorEq, List.not_mem_nil, or_false, false_or] at h
  rcases h with ⟨rfl, rfl⟩ | ⟨rfl, rfl⟩ | ⟨rfl, rfl⟩ <;> simp [CarefulCall, someStores]

-- A pipe opened three times by one thread: the number given, then none.
example : ((storeRun someStores false { fifo := fun _ => some 5 }
    ([.call 1 (.openRead 3), .run 1, .run 1, .run 1, .call 1 (.openRead 3), .run 1, .run 1, .run 1] : List StoreAct)).map (·.opened)) =
    some [(3, some 5), (3, none)] := by rfl

/-- **C88 is false** for opening as well, when messages of the level info are logged: two threads that open a data store in memory, or a
versioned object, whose name nobody has asked for, race on the name. -/
theorem C88_open_violated (stores : Nat → AnyStore) (s0 : StoreState) (h0 : Fresh stores s0) (k t u : Nat) (htu : t ≠ u)
    (hk : NameComputed (stores k)) (hnew : s0.ids k = []) :
    ∃ s, storeRun stores true s0 [.call t (.openRead k), .call u (.openRead k), .run t] = some s ∧ StoreRace stores s (.id k) := by
  have hc : callMicros stores true (.openRead k) = callMicros stores true (.id k) := by
    cases hs : stores k <;> simp [hs, NameComputed] at hk <;> simp [callMicros, hs]
  obtain ⟨s, h1, h2⟩ := C88_id_violated stores true s0 h0 k t u htu hk hnew
  refine ⟨s, ?_, h2⟩
  rw [← h1]
  simp only [storeRun, storeStep, hc]

/-- **C88** — when such messages are not logged, data stores other than pipes can be opened by any threads at any time, whether their names
have been asked for or not. -/
theorem C88_open (stores : Nat → AnyStore) (s0 s : StoreState) (as : List StoreAct) (h0 : Fresh stores s0)
    (hcalls : ∀ t c, StoreAct.call t c ∈ as → ∃ k, c = .openRead k ∧ ∀ path x, stores k ≠ .pipe path x)
    (hrun : storeRun stores false s0 as = some s) (cell : StoreCell) : ¬ StoreRace stores s cell := by
  suffices h : ∀ t, s.todo t = [] by
    rintro ⟨t, u, m, n, w, w', l, l', _, h1, _⟩
    rw [h t] at h1
    cases h1
  have h0' := h0.idle
  clear h0
  induction as generalizing s0 with
  | nil =>
    simp only [storeRun, Option.some.injEq] at hrun
    rw [← hrun]
    exact h0'
  | cons a as ih =>
    simp only [storeRun] at hrun
    obtain ⟨s1, h1, h2⟩ := Option.bind_eq_some_iff.1 hrun
    refine ih s1 (fun t c hm => hcalls t c (List.mem_cons_of_mem _ hm)) h2 ?_
    cases a with
    | run t => simp [storeStep, h0' t] at h1
    | call t c =>
      obtain ⟨k, rfl, hk⟩ := hcalls t c List.mem_cons_self
      have hm : callMicros stores false (.openRead k) = [] := by
        cases hs : stores k with
        | pipe path x => exact absurd hs (hk path x)
        | _ => simp [callMicros, hs]
      simp only [storeStep, h0' t, if_true, Option.some.injEq] at h1
      intro v
      rw [← h1]
      simp only [hm]
      split
      · rfl
      · exact h0' v

-- Two threads open the data store in memory and the versioned object, which have no names yet.
example : ∃ s, storeRun someStores false { fifo := fun _ => none } [.call 1 (.openRead 0), .call 2 (.openRead 0), .call 1 (.openRead 2)] = some s ∧
    NameComputed (someStores 0) ∧ NameComputed (someStores 2) :=
  ⟨_, rfl, trivial, by simp [someStores, NameComputed]⟩

/-! ## Data stores and parallel readers -/

/-- Rows of a data store, the last component: whether the row is bad. -/
abbrev badRows : Machine (Nat × Bool) := listMachine [(0, true), (0, true)]

/-- **C72 is false** for the name of a data store: a reader decodes batches on several threads, and for each bad row a decoder asks the
data store of the row for its name (`csv_reader.cc` 657, 704, 740; `image_reader.cc` 216; `recordio_protobuf_reader.cc` 189).  Two
decoders, both enabled with a bad row of the same data store in memory, race on that name. -/
theorem C72_store_violated (stores : Nat → AnyStore) (info : Bool) (s0 : StoreState) (h0 : Fresh stores s0)
    (hk : NameComputed (stores 0)) (hnew : s0.ids 0 = []) :
    ∃ w : WState 1 .none_ badRows (List (Nat × Bool)) Nat Nat,
      wrun 2 2 (fun _ => 1) (fun b => .ok (some b.instances)) (fun n _ => (.ok (some 0), n))
        [.dact (.call .read), .dact (.sys .produce), .dact (.sys .send), .dact (.sys .produce), .dact (.sys .send)]
        (WState.init 1 .none_ badRows 1) = some w ∧
      (∀ i, i = 0 ∨ i = 1 → (wstep 2 2 (fun _ => 1) (fun b => .ok (some b.instances)) (fun n _ => (.ok (some 0), n))
        (.dact (.sys (.decode i))) w).isSome = true ∧
        ∃ b, w.d.p.decoding[i]? = some b ∧ (0, true) ∈ b.instances) ∧
      ∃ s, storeRun stores info s0 [.call 0 (.id 0), .call 1 (.id 0), .run 0] = some s ∧ StoreRace stores s (.id 0) := by
  refine ⟨_, rfl, ?_, C88_id_violated stores info s0 h0 0 0 1 (by decide) hk hnew⟩
  intro i hi
  rcases hi with rfl | rfl
  · exact ⟨rfl, _, rfl, by simp⟩
  · exact ⟨rfl, _, rfl, by simp⟩

end Mlio
