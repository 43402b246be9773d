import Verif.Model.InstanceReaders

/-!
# The options of data readers as they are passed

The checks of the constructors of the readers: `parallel_data_reader.cc` 64-72, `instance_reader.cc` 31-55,
`instance_readers/sharded_instance_reader.cc` 28-34, `instance_readers/sampled_instance_reader.cc` 27-37, `instance_batch_reader.cc` 31-37.

In `Verif/Model/InstanceReaders.lean` the sample ratio is a fraction; here it is any `float`.

Simplification: `reserve` (`instance_batch_reader.cc` 42, `shuffled_instance_reader.cc` 42) never fails.
-/

namespace Mlio

/-- A `float`: sign, exponent and fraction of an IEEE number of single precision. -/
structure Single where
  neg : Bool
  expo : Fin 256
  frac : Fin (2 ^ 23)
  deriving DecidableEq, Repr

/-- Not a number. -/
def Single.isNan (s : Single) : Bool := s.expo.val == 255 && s.frac.val != 0

/-- `x <= 0.0F`: false for NaN, true for both zeros and everything negative. -/
def Single.leZero (s : Single) : Bool := !s.isNan && (s.neg || (s.expo.val == 0 && s.frac.val == 0))

/-- `x >= 1.0F`, where 1 has the exponent 127. -/
def Single.geOne (s : Single) : Bool := !s.isNan && !s.neg && decide (127 ≤ s.expo.val)

/-- The test in the constructor, `sampled_instance_reader.cc` 30-32. -/
def Single.refused (s : Single) : Bool := s.leZero || s.geOne

/-- A number that is neither negative nor infinite, as significand and (negative) exponent. -/
def Single.ratio (s : Single) : Ratio :=
  if s.expo.val = 0 then ⟨s.frac.val, 149⟩ else ⟨2 ^ 23 + s.frac.val, 150 - s.expo.val⟩

/-- `static_cast<std::ptrdiff_t>(ratio * static_cast<float>(size))`, `sampled_instance_reader.cc` 66-67; the conversion of NaN to an integer
is undefined. -/
def Single.keep (s : Single) (size : Nat) : Res Nat :=
  if s.isNan then .ub "conversion of NaN to an integer" else .ok (s.ratio.keep size)

/-- `Sampled_instance_reader::fill_buffer_from_inner`, `sampled_instance_reader.cc` 52-73, as `sampledFill`, for any `float`. -/
def sampledFillF {α : Type} (inner : Machine α) (q : Single) (s : SampledState inner.σ α) : Res Unit × SampledState inner.σ α :=
  match sampleLoop inner 100 s.inner [] with
  | (.ok (), i, buf) =>
    if buf.isEmpty then (.ok (), ⟨i, buf, 0⟩)
    else
      match q.keep buf.length with
      | .ok n =>
        if n > buf.length then (.ub "erase beyond the end", ⟨i, buf, s.pos⟩)
        else (.ok (), ⟨i, buf.take n, 0⟩)
      | .err e => (.err e, ⟨i, buf, s.pos⟩)
      | .ub w => (.ub w, ⟨i, buf, s.pos⟩)
  | (.err e, i, buf) => (.err e, ⟨i, buf, s.pos⟩)
  | (.ub w, i, buf) => (.ub w, ⟨i, buf, s.pos⟩)

/-- `Sampled_instance_reader::read_instance_core`, `sampled_instance_reader.cc` 39-50. -/
def sampledReadF {α : Type} (inner : Machine α) (q : Single) (s : SampledState inner.σ α) : Res (Option α) × SampledState inner.σ α :=
  if s.pos = s.buffer.length then
    match sampledFillF inner q s with
    | (.ok (), s') => sampledTake s'
    | (.err e, s') => (.err e, s')
    | (.ub w, s') => (.ub w, s')
  else sampledTake s

/-- `Sampled_instance_reader`, for any `float`. -/
def sampledF {α : Type} (q : Single) (inner : Machine α) : Machine α where
  σ := SampledState inner.σ α
  init := ⟨inner.init, [], 0⟩
  read := sampledReadF inner q
  reset := fun s => ⟨inner.reset s.inner, [], 0⟩

/-- The options of `Data_reader_params` that constructors check or that select instances, as they are passed (`include/mlio/data_reader.h`). -/
structure RawOptions where
  batchSize : Nat
  toSkip : Nat := 0
  toRead : Option Nat := none
  numShards : Nat := 0
  shardIndex : Nat := 0
  sampleRatio : Option Single := none
  shuffle : Option ShuffleParams := none
  last : LastHandling := .none_

/-- `make_instance_reader`, `instance_reader.cc` 31-55; the constructors `sharded_instance_reader.cc` 28-34 and `sampled_instance_reader.cc` 27-37. -/
def makeRawReader {α : Type} (R : Rng) (o : RawOptions) (core : Machine α) : Except Err (Machine α) :=
  let r := core.base
  let r := if o.toSkip > 0 ∨ o.toRead.isSome then (ranged o.toSkip o.toRead r).base else r
  if o.numShards > 1 ∧ o.shardIndex ≥ o.numShards then .error .invalidArgument
  else
    let r := if o.numShards > 1 then (sharded o.numShards o.shardIndex r).base else r
    match o.sampleRatio with
    | some q =>
      if q.refused then .error .invalidArgument
      else
        let r := (sampledF q r).base
        match o.shuffle with
        | some p => .ok (shuffled R p r).base
        | none => .ok r
    | none =>
      match o.shuffle with
      | some p => .ok (shuffled R p r).base
      | none => .ok r

/-- The constructor of `Parallel_data_reader`, `parallel_data_reader.cc` 64-72, with that of `Instance_batch_reader`,
`instance_batch_reader.cc` 31-37: the reader of batches. -/
def makeBatchReader {α : Type} (R : Rng) (o : RawOptions) (core : Machine α) : Except Err (Machine (Batch α)) :=
  match makeRawReader R o core with
  | .ok r => if o.batchSize = 0 then .error .invalidArgument else .ok (batched o.batchSize o.last r)
  | .error e => .error e

end Mlio
