import Verif.Basic

/-!
# Loops over readers in Python

`src/mlio-py/mlio/core/data_reader.cc` 30-56 and 589-617 (`DataIterator` and `DataReader.__iter__`), `src/mlio-py/mlio/integ/tensorflow.py` 35-45
(`make_tf_dataset`), with what it uses of Python (generators) and TensorFlow (`Dataset.from_generator`: each iteration over the dataset calls `generator` once and `next` for each element;
prefetching and the conversion of tensors are left out).

The reader below is what C25, C28 and C89 say of `Data_reader`: in each epoch some examples and then the end of the data or an error that stays
(`Proofs/PyLoop.lean` shows that every history of calls that C89 allows is one of it).  Examples are of any type `ε`.
-/

namespace Mlio

/-- A reader: the examples of each epoch and what follows them (`none`: the end of the data); the current epoch, and how many of its examples have been read. -/
structure LoopReader (ε : Type) where
  content : Nat → List ε × Option Err
  epoch : Nat
  pos : Nat

/-- `Data_reader::peek_example`. -/
def LoopReader.peekExample {ε : Type} (r : LoopReader ε) : Except Err (Option ε) :=
  match (r.content r.epoch).1[r.pos]? with
  | some e => .ok (some e)
  | none => match (r.content r.epoch).2 with
    | some x => .error x
    | none => .ok none

/-- `Data_reader::read_example`. -/
def LoopReader.readExample {ε : Type} (r : LoopReader ε) : Except Err (Option ε) × LoopReader ε :=
  match r.peekExample with
  | .ok (some e) => (.ok (some e), { r with pos := r.pos + 1 })
  | o => (o, r)

/-- `Data_reader::reset`. -/
def LoopReader.reset {ε : Type} (r : LoopReader ε) : LoopReader ε := { r with epoch := r.epoch + 1, pos := 0 }

/-- What a call ends with in Python: an example, a dictionary of features, `None`, the exception `StopIteration` (of which a `for` loop makes its end), the exception of an error, the exception of
`example[feature]` if there is no such feature, the exception of TensorFlow if the features are not those of `output_types`. -/
inductive LoopOut (ε τ : Type) where
  | example (e : ε)
  | element (d : List (Bytes × τ))
  | noExample
  | stop
  | raised (x : Err)
  | missing
  | mismatch
  | done
  deriving DecidableEq, Repr

/-- A generator: running (also before the first `next`) or finished. -/
inductive LoopGen where
  | running
  | finished
  deriving DecidableEq, Repr

/-- A program that uses a reader and a dataset made of it, with the iterations over the dataset. -/
structure LoopState (ε : Type) where
  reader : LoopReader ε
  gens : List LoopGen

/-- The calls. -/
inductive LoopOp where
  /-- `reader.read_example()`. -/
  | read
  /-- `reader.peek_example()`. -/
  | peek
  /-- `reader.reset()`. -/
  | reset
  /-- `next(it)` for any `it = iter(reader)`: the step of `for example in reader`.  The iterator has no state of its own (53-54). -/
  | next
  /-- `iter(dataset)`. -/
  | iterate
  /-- The next element of the iteration `i`. -/
  | element (i : Nat)
  deriving DecidableEq, Repr

/-- `Py_data_iterator::next`, `data_reader.cc` 37-51. -/
def LoopReader.next {ε τ : Type} (r : LoopReader ε) : LoopOut ε τ × LoopReader ε :=
  match r.readExample with
  | (.ok none, r1) => (.stop, r1)
  | (.ok (some e), r1) => (.example e, r1)
  | (.error x, r1) => (.raised x, r1)

/-- `feature_tensor_dict`, `tensorflow.py` 38-40: `none` if a feature is missing.  `lookup` is `example[feature]`.  A key that is set again keeps its place. -/
def featureDict {ε τ : Type} (lookup : ε → Bytes → Option τ) (features : List Bytes) (e : ε) : Option (List (Bytes × τ)) :=
  features.eraseDups.mapM (fun f => (lookup e f).map (f, ·))

/-- The keys of `output_types`, `tensorflow.py` 43: `zip` ends with the shorter list. -/
def outputKeys (features : List Bytes) (dtypes : Nat) : List Bytes := (features.take dtypes).eraseDups

/-- `next` of a generator, `tensorflow.py` 36-41, and the comparison with `output_types` by TensorFlow.  A generator is finished by the end of its loop and by an exception. -/
def LoopState.genNext {ε τ : Type} (lookup : ε → Bytes → Option τ) (features : List Bytes) (dtypes : Nat) (s : LoopState ε) (i : Nat) : LoopOut ε τ × LoopState ε :=
  match s.gens[i]? with
  | some .running => match s.reader.next (τ := τ) with
    | (.example e, r1) => match featureDict lookup features e with
      | some d =>
        if (features.eraseDups.all fun f => (outputKeys features dtypes).contains f) = true then (.element d, { s with reader := r1 })
        else (.mismatch, { s with reader := r1 })
      | none => (.missing, { reader := r1, gens := s.gens.set i .finished })
    | (o, r1) => (o, { reader := r1, gens := s.gens.set i .finished })
  | _ => (.stop, s)

/-- A call. -/
def LoopState.step {ε τ : Type} (lookup : ε → Bytes → Option τ) (features : List Bytes) (dtypes : Nat) (s : LoopState ε) : LoopOp → LoopOut ε τ × LoopState ε
  | .read => match s.reader.readExample with
    | (.ok (some e), r1) => (.example e, { s with reader := r1 })
    | (.ok none, r1) => (.noExample, { s with reader := r1 })
    | (.error x, r1) => (.raised x, { s with reader := r1 })
  | .peek => match s.reader.peekExample with
    | .ok (some e) => (.example e, s)
    | .ok none => (.noExample, s)
    | .error x => (.raised x, s)
  | .reset => (.done, { s with reader := s.reader.reset })
  | .next => let (o, r1) := s.reader.next; (o, { s with reader := r1 })
  | .iterate => (.done, { s with gens := s.gens ++ [.running] })
  | .element i => s.genNext lookup features dtypes i

/-- A program. -/
def LoopState.run {ε τ : Type} (lookup : ε → Bytes → Option τ) (features : List Bytes) (dtypes : Nat) (s : LoopState ε) : List LoopOp → List (LoopOut ε τ) × LoopState ε
  | [] => ([], s)
  | a :: as =>
    let (o, s1) := s.step lookup features dtypes a
    let (os, s2) := s1.run lookup features dtypes as
    (o :: os, s2)

end Mlio
