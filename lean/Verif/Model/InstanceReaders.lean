import Verif.Basic

/-!
# Instance readers

`src/mlio/instance_readers/*.cc`, `src/mlio/instance_batch_reader.cc`.

Each class is a `Machine`: its member variables, the initial state, `read_instance_core` (or
`read_instance`) and `reset`.  Reader classes that wrap another reader take the machine of the inner
reader as a parameter.
-/

namespace Mlio

/-- A reader class: state, initial state, read and reset. -/
structure Machine (α : Type) where
  σ : Type
  init : σ
  read : σ → Res (Option α) × σ
  reset : σ → σ

/-- The outcomes of `n` successive reads. -/
def Machine.outs {α : Type} (m : Machine α) : Nat → m.σ → List (Res (Option α))
  | 0, _ => []
  | n + 1, s => (m.read s).1 :: m.outs n (m.read s).2

/-! ## The base class with the peeked instance -/

/-- `Instance_reader_base::read_instance`, `instance_reader_base.cc` 22-29; also
`Record_reader_base::read_record`, `record_readers/record_reader_base.cc` 23-29, which is the same code.
The state is the state of the derived class and `peeked_instance_`. -/
def baseRead {α : Type} (m : Machine α) (s : m.σ × Option α) : Res (Option α) × (m.σ × Option α) :=
  match s.2 with
  | some x => (.ok (some x), (s.1, none))
  | none => let (o, c) := m.read s.1; (o, (c, none))

/-- `Instance_reader_base::peek_instance`, `instance_reader_base.cc` 31-37; `Record_reader_base::peek_record`,
`record_reader_base.cc` 31-37. -/
def basePeek {α : Type} (m : Machine α) (s : m.σ × Option α) : Res (Option α) × (m.σ × Option α) :=
  match s.2 with
  | some x => (.ok (some x), s)
  | none =>
    match m.read s.1 with
    | (.ok o, c) => (.ok o, (c, o))
    | (o, c) => (o, (c, none))

/-- `Instance_reader_base::reset`, `instance_reader_base.cc` 39-44. -/
def baseReset {α : Type} (m : Machine α) (s : m.σ × Option α) : m.σ × Option α :=
  (m.reset s.1, none)

/-- A class derived from `Instance_reader_base`, seen through the interface `Instance_reader`. -/
def Machine.base {α : Type} (m : Machine α) : Machine α where
  σ := m.σ × Option α
  init := (m.init, none)
  read := baseRead m
  reset := baseReset m

/-! ## Range -/

/-- The loop `for (i = 0; i < n; i++) { if (inner_->read_instance() == nullopt) return {}; }` of
`ranged_instance_reader.cc` 37-42 and `sharded_instance_reader.cc` 49-54: `ok true` if it ran to its end,
`ok false` if it returned. -/
def skipLoop {α : Type} (inner : Machine α) : Nat → inner.σ → Res Bool × inner.σ
  | 0, s => (.ok true, s)
  | n + 1, s =>
    match inner.read s with
    | (.ok (some _), s') => skipLoop inner n s'
    | (.ok none, s') => (.ok false, s')
    | (.err e, s') => (.err e, s')
    | (.ub w, s') => (.ub w, s')

/-- Members of `Ranged_instance_reader`, `ranged_instance_reader.h` 42-45. -/
structure RangedState (σ : Type) where
  inner : σ
  firstRead : Bool
  numRead : Nat

/-- `Ranged_instance_reader::should_stop_reading`, `ranged_instance_reader.cc` 59-66. -/
def RangedState.stop {σ : Type} (s : RangedState σ) (toRead : Option Nat) : Bool :=
  match toRead with
  | none => false
  | some n => s.numRead == n

/-- `ranged_instance_reader.cc` 45-56: the part after the skip loop. -/
def rangedReadRest {α : Type} (inner : Machine α) (toRead : Option Nat) (s : RangedState inner.σ) :
    Res (Option α) × RangedState inner.σ :=
  if s.stop toRead then (.ok none, s)
  else
    match inner.read s.inner with
    | (.ok (some x), i) => (.ok (some x), { s with inner := i, numRead := s.numRead + 1 })
    | (o, i) => (o, { s with inner := i })

/-- `Ranged_instance_reader::read_instance_core`, `ranged_instance_reader.cc` 32-57. -/
def rangedRead {α : Type} (inner : Machine α) (toSkip : Nat) (toRead : Option Nat)
    (s : RangedState inner.σ) : Res (Option α) × RangedState inner.σ :=
  if s.firstRead then
    match skipLoop inner toSkip s.inner with
    | (.ok true, i) => rangedReadRest inner toRead { s with inner := i, firstRead := false }
    | (.ok false, i) => (.ok none, { s with inner := i, firstRead := false })
    | (.err e, i) => (.err e, { s with inner := i, firstRead := false })
    | (.ub w, i) => (.ub w, { s with inner := i, firstRead := false })
  else rangedReadRest inner toRead s

/-- `Ranged_instance_reader` (reset: `ranged_instance_reader.cc` 68-75). -/
def ranged {α : Type} (toSkip : Nat) (toRead : Option Nat) (inner : Machine α) : Machine α where
  σ := RangedState inner.σ
  init := ⟨inner.init, true, 0⟩
  read := rangedRead inner toSkip toRead
  reset := fun s => ⟨inner.reset s.inner, true, 0⟩

/-! ## Shards -/

/-- `Sharded_instance_reader::read_instance_core`, `sharded_instance_reader.cc` 36-57.  The state is the
inner reader and `first_read_`. -/
def shardedRead {α : Type} (inner : Machine α) (numShards shardIndex : Nat)
    (s : inner.σ × Bool) : Res (Option α) × (inner.σ × Bool) :=
  match skipLoop inner (if s.2 then shardIndex else numShards - 1) s.1 with
  | (.ok true, i) => let (o, i') := inner.read i; (o, (i', false))
  | (.ok false, i) => (.ok none, (i, false))
  | (.err e, i) => (.err e, (i, false))
  | (.ub w, i) => (.ub w, (i, false))

/-- `Sharded_instance_reader` (reset: `sharded_instance_reader.cc` 59-64). -/
def sharded {α : Type} (numShards shardIndex : Nat) (inner : Machine α) : Machine α where
  σ := inner.σ × Bool
  init := (inner.init, true)
  read := shardedRead inner numShards shardIndex
  reset := fun s => (inner.reset s.1, true)

/-! ## Sampling -/

/-- Rounding of a natural number to 24 significant bits, to nearest, ties to even: what IEEE single
precision does to an exact product. -/
def round24 (p : Nat) : Nat :=
  if p < 2 ^ 24 then p
  else
    let s := p.log2 - 23
    let q := p >>> s
    let r := p % 2 ^ s
    let half := 2 ^ (s - 1)
    if r > half ∨ (r = half ∧ q % 2 = 1) then (q + 1) <<< s else q <<< s

/-- A `float` sample ratio `mant * 2^(-exp)` with a 24-bit significand. -/
structure Ratio where
  mant : Nat
  exp : Nat
  deriving DecidableEq, Repr

/-- The test in the constructor, `sampled_instance_reader.cc` 30-32: greater than 0 and less than 1. -/
def Ratio.ok (r : Ratio) : Bool := 0 < r.mant && r.mant < 2 ^ r.exp

/-- `static_cast<std::ptrdiff_t>(*params_->sample_ratio * static_cast<float>(buffer_.size()))`,
`sampled_instance_reader.cc` 66-67: single precision product, then truncation.  (The size is at most
100, hence exact as a `float`; the product does not underflow below the precision of the ratio.) -/
def Ratio.keep (r : Ratio) (size : Nat) : Nat := round24 (r.mant * size) / 2 ^ r.exp

/-- Members of `Sampled_instance_reader`, `sampled_instance_reader.h` 46-49: the buffer and `buffer_pos_` as an
offset from `buffer_.begin()` (`reserve` in the constructor guarantees that the buffer is never
reallocated, so the iterator keeps this meaning). -/
structure SampledState (σ α : Type) where
  inner : σ
  buffer : List (Option α)
  pos : Nat

/-- The loop of `fill_buffer_from_inner`, `sampled_instance_reader.cc` 56-63, with `room` places left. -/
def sampleLoop {α : Type} (inner : Machine α) : (room : Nat) → inner.σ → List (Option α) →
    Res Unit × inner.σ × List (Option α)
  | 0, s, buf => (.ok (), s, buf)
  | room + 1, s, buf =>
    match inner.read s with
    | (.ok (some x), s') => sampleLoop inner room s' (buf ++ [some x])
    | (.ok none, s') => (.ok (), s', buf)
    | (.err e, s') => (.err e, s', buf)
    | (.ub w, s') => (.ub w, s', buf)

/-- `Sampled_instance_reader::fill_buffer_from_inner`, `sampled_instance_reader.cc` 52-73. -/
def sampledFill {α : Type} (inner : Machine α) (r : Ratio) (s : SampledState inner.σ α) :
    Res Unit × SampledState inner.σ α :=
  match sampleLoop inner 100 s.inner [] with
  | (.ok (), i, buf) =>
    if buf.isEmpty then (.ok (), ⟨i, buf, 0⟩)
    else if r.keep buf.length > buf.length then (.ub "erase beyond the end", ⟨i, buf, s.pos⟩)
    else (.ok (), ⟨i, buf.take (r.keep buf.length), 0⟩)
  | (.err e, i, buf) => (.err e, ⟨i, buf, s.pos⟩)
  | (.ub w, i, buf) => (.ub w, ⟨i, buf, s.pos⟩)

/-- `sampled_instance_reader.cc` 45-49. -/
def sampledTake {σ α : Type} (s : SampledState σ α) : Res (Option α) × SampledState σ α :=
  if s.buffer.isEmpty then (.ok none, s)
  else if s.pos < s.buffer.length then
    (.ok (s.buffer.getD s.pos none), { s with buffer := s.buffer.set s.pos none, pos := s.pos + 1 })
  else (.ub "read beyond the end of the buffer", s)

/-- `Sampled_instance_reader::read_instance_core`, `sampled_instance_reader.cc` 39-50. -/
def sampledRead {α : Type} (inner : Machine α) (r : Ratio) (s : SampledState inner.σ α) :
    Res (Option α) × SampledState inner.σ α :=
  if s.pos = s.buffer.length then
    match sampledFill inner r s with
    | (.ok (), s') => sampledTake s'
    | (.err e, s') => (.err e, s')
    | (.ub w, s') => (.ub w, s')
  else sampledTake s

/-- `Sampled_instance_reader` (reset: `sampled_instance_reader.cc` 75-82). -/
def sampled {α : Type} (r : Ratio) (inner : Machine α) : Machine α where
  σ := SampledState inner.σ α
  init := ⟨inner.init, [], 0⟩
  read := sampledRead inner r
  reset := fun s => ⟨inner.reset s.inner, [], 0⟩

/-! ## Shuffling -/

/-- The random number facilities of the standard library, as parameters: the engine `std::mt19937_64`
with `seed`, `std::uniform_int_distribution<std::size_t>{0, b}` and `std::shuffle`. -/
structure Rng where
  G : Type
  seed : Nat → G
  draw : Nat → G → Nat × G
  shuffle : {α : Type} → G → List α → List α × G

/-- What the standard guarantees: drawn numbers lie in the interval, and shuffling permutes. -/
structure Rng.Lawful (R : Rng) : Prop where
  draw_le : ∀ b g, (R.draw b g).1 ≤ b
  perm : ∀ {α : Type} (g : R.G) (l : List α), ((R.shuffle g l).1).Perm l

/-- Shuffle parameters (`data_reader.h`: `shuffle_window`, `shuffle_seed`, `reshuffle_each_epoch`).
The seed is the given one or the one drawn from `std::random_device` when the reader is made
(`shuffled_instance_reader.h` 53). -/
structure ShuffleParams where
  window : Nat
  seed : Nat
  reshuffle : Bool
  deriving DecidableEq, Repr

/-- `shuffle_window_` after the constructor, `shuffled_instance_reader.cc` 28-43. -/
def ShuffleParams.effWindow (p : ShuffleParams) : Nat := if p.window = 0 then 2 ^ 64 - 1 else p.window

/-- The upper end of `dist_`, `shuffled_instance_reader.cc` 33: `shuffle_window_ - 1` in `std::size_t`, computed
before a zero window is replaced. -/
def ShuffleParams.maxDraw (p : ShuffleParams) : Nat :=
  if p.window = 0 then 2 ^ 64 - 1 else p.window - 1

/-- Members of `Shuffled_instance_reader`, `shuffled_instance_reader.h` 47-55. -/
structure ShuffledState (σ G α : Type) where
  inner : σ
  buffer : List α
  innerHas : Bool
  rng : G

/-- `Shuffled_instance_reader::fill_buffer_from_inner`, `shuffled_instance_reader.cc` 75-89; `room` is
`shuffle_window_ - buffer_.size()`. -/
def shuffleFill {α : Type} (R : Rng) (inner : Machine α) : (room : Nat) →
    ShuffledState inner.σ R.G α → Res Unit × ShuffledState inner.σ R.G α
  | 0, s => (.ok (), s)
  | room + 1, s =>
    if s.innerHas then
      match inner.read s.inner with
      | (.ok (some x), i) => shuffleFill R inner room { s with inner := i, buffer := s.buffer ++ [x] }
      | (.ok none, i) =>
        let (b, g) := R.shuffle s.rng s.buffer
        (.ok (), ⟨i, b, false, g⟩)
      | (.err e, i) => (.err e, { s with inner := i })
      | (.ub w, i) => (.ub w, { s with inner := i })
    else (.ok (), s)

/-- `pop_random_instance_from_buffer`, `shuffled_instance_reader.cc` 91-104; the distribution is over
`0 .. shuffle_window - 1`. -/
def popRandom {σ α : Type} (R : Rng) (p : ShuffleParams) (s : ShuffledState σ R.G α) :
    Res (Option α) × ShuffledState σ R.G α :=
  let (i, g) := R.draw p.maxDraw s.rng
  match s.buffer[i]?, s.buffer.getLast? with
  | some x, some l =>
    (.ok (some x), { s with buffer := (if i ≠ s.buffer.length - 1 then s.buffer.set i l else s.buffer).dropLast
                            rng := g })
  | _, _ => (.ub "index beyond the end of the buffer", { s with rng := g })

/-- `Shuffled_instance_reader::read_instance_core`, `shuffled_instance_reader.cc` 52-73. -/
def shuffledRead {α : Type} (R : Rng) (p : ShuffleParams) (inner : Machine α)
    (s : ShuffledState inner.σ R.G α) : Res (Option α) × ShuffledState inner.σ R.G α :=
  if p.effWindow = 1 then
    let (o, i) := inner.read s.inner
    (o, { s with inner := i })
  else
    match shuffleFill R inner (p.effWindow - s.buffer.length) s with
    | (.ok (), s') =>
      match s'.buffer.getLast? with
      | none => (.ok none, s')
      | some l =>
        if s'.innerHas then popRandom R p s'
        else (.ok (some l), { s' with buffer := s'.buffer.dropLast })
    | (.err e, s') => (.err e, s')
    | (.ub w, s') => (.ub w, s')

/-- `Shuffled_instance_reader` (reset: `shuffled_instance_reader.cc` 106-119). -/
def shuffled {α : Type} (R : Rng) (p : ShuffleParams) (inner : Machine α) : Machine α where
  σ := ShuffledState inner.σ R.G α
  init := ⟨inner.init, [], true, R.seed p.seed⟩
  read := shuffledRead R p inner
  reset := fun s => ⟨inner.reset s.inner, [], true, if p.reshuffle then s.rng else R.seed p.seed⟩

/-! ## Composition -/

/-- The options of `Data_reader_params` that select instances (`include/mlio/data_reader.h`). -/
structure ReadOptions where
  toSkip : Nat := 0
  toRead : Option Nat := none
  numShards : Nat := 0
  shardIndex : Nat := 0
  sampleRatio : Option Ratio := none
  shuffle : Option ShuffleParams := none

/-- `make_instance_reader`, `instance_reader.cc` 31-55; `none` stands for the `std::invalid_argument` of the
constructors (`sharded_instance_reader.cc` 31-33, `sampled_instance_reader.cc` 30-32). -/
def makeInstanceReader {α : Type} (R : Rng) (o : ReadOptions) (core : Machine α) : Option (Machine α) :=
  let r := core.base
  let r := if o.toSkip > 0 ∨ o.toRead.isSome then (ranged o.toSkip o.toRead r).base else r
  if o.numShards > 1 ∧ o.shardIndex ≥ o.numShards then none
  else
    let r := if o.numShards > 1 then (sharded o.numShards o.shardIndex r).base else r
    match o.sampleRatio with
    | some q =>
      if q.ok then
        let r := (sampled q r).base
        match o.shuffle with
        | some p => some (shuffled R p r).base
        | none => some r
      else none
    | none =>
      match o.shuffle with
      | some p => some (shuffled R p r).base
      | none => some r

/-! ## Batches -/

/-- `Last_example_handling`, `include/mlio/data_reader.h`. -/
inductive LastHandling where
  | none_ | drop | dropWarn | pad | padWarn
  deriving DecidableEq, Repr

/-- `Instance_batch`, `include/mlio/instance_batch.h`: index, instances and declared size. -/
structure Batch (α : Type) where
  index : Nat
  instances : List α
  size : Nat
  deriving DecidableEq, Repr

/-- The loop of `read_instance_batch`, `instance_batch_reader.cc` 44-51, with `room` instances to go. -/
def batchLoop {α : Type} (inner : Machine α) : (room : Nat) → inner.σ → List α →
    Res (List α) × inner.σ
  | 0, s, acc => (.ok acc, s)
  | room + 1, s, acc =>
    match inner.read s with
    | (.ok (some x), s') => batchLoop inner room s' (acc ++ [x])
    | (.ok none, s') => (.ok acc, s')
    | (.err e, s') => (.err e, s')
    | (.ub w, s') => (.ub w, s')

/-- `Instance_batch_reader::read_instance_batch`, `instance_batch_reader.cc` 39-86.  The state is the inner reader and
`batch_idx_`.  Logging is left out. -/
def batchRead {α : Type} (batchSize : Nat) (h : LastHandling) (inner : Machine α) (s : inner.σ × Nat) :
    Res (Option (Batch α)) × (inner.σ × Nat) :=
  match batchLoop inner batchSize s.1 [] with
  | (.ok xs, i) =>
    if xs.isEmpty then (.ok none, (i, s.2))
    else if xs.length ≠ batchSize ∧ (h = .drop ∨ h = .dropWarn) then (.ok none, (i, s.2))
    else (.ok (some ⟨s.2, xs, if h = .pad then batchSize else xs.length⟩), (i, s.2 + 1))
  | (.err e, i) => (.err e, (i, s.2))
  | (.ub w, i) => (.ub w, (i, s.2))

/-- `Instance_batch_reader` (reset: `instance_batch_reader.cc` 88-93). -/
def batched {α : Type} (batchSize : Nat) (h : LastHandling) (inner : Machine α) : Machine (Batch α) where
  σ := inner.σ × Nat
  init := (inner.init, 0)
  read := batchRead batchSize h inner
  reset := fun s => (inner.reset s.1, 0)

end Mlio
