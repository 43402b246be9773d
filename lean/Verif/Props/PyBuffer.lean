import Verif.Proofs.PyBuffer
import Verif.Props.Parquet

/-! # C106: the buffer of a Python object is given back with the interpreter lock held -/

namespace Mlio
open Spec

/-- C106 (given back once): whatever a program does with an in-memory store, its streams, slices, records and readers, the
buffer is given back once, when the last of the objects that refer to it has gone, and not before. -/
theorem C106_once (mem : Bytes) (as : List HoldAct) :
    ((HoldState.init mem).run parquetDecode as).released.length =
      if ((HoldState.init mem).run parquetDecode as).alive then 0 else 1 :=
  run_once as _ (init_inv mem) rfl

/-- C106 (kept): while a store, a slice, a record or a data reader is there, the buffer has not been given back. -/
theorem C106_kept (mem : Bytes) (as : List HoldAct) (k : Nat) (o : HoldObj)
    (h : ((HoldState.init mem).run parquetDecode as).obj k = some o)
    (ho : o = .store ∨ o = .slice ∨ o = .record ∨ ∃ n, o = .dataReader n) :
    ((HoldState.init mem).run parquetDecode as).released = [] := by
  have hal : ((HoldState.init mem).run parquetDecode as).alive = true := by
    refine (holdAlive_iff _).mpr ⟨k, o, h, ?_⟩
    rcases ho with rfl | rfl | rfl | ⟨n, rfl⟩ <;> rfl
  have := C106_once mem as
  rw [hal, if_pos rfl] at this
  exact List.length_eq_zero_iff.mp this

/-- C106 (not leaked): after all objects have been deleted the buffer has been given back. -/
theorem C106_gone (mem : Bytes) (as : List HoldAct) (h : ∀ k, ((HoldState.init mem).run parquetDecode as).obj k = none) :
    ((HoldState.init mem).run parquetDecode as).released.length = 1 := by
  have hal : ((HoldState.init mem).run parquetDecode as).alive = false :=
    (not_holdAlive_iff _).mpr fun k o hk => by rw [h k] at hk; cases hk
  have := C106_once mem as
  rwa [hal, if_neg (by simp)] at this

/-- C106: an object that is deleted is gone, unless it is a data reader whose threads are at work. -/
theorem C106_deleted (mem : Bytes) (as : List HoldAct) (i : Nat)
    (h : ∀ n, ((HoldState.init mem).run parquetDecode as).obj i ≠ some (.dataReader (n + 1))) :
    ((HoldState.init mem).run parquetDecode (as ++ [.del i])).obj i = none := by
  rw [run_append]
  show (HoldState.step _ _ _).obj i = none
  rw [step_obj]
  generalize (HoldState.init mem).run parquetDecode as = s at h ⊢
  simp only [HoldState.act]
  rw [obj_setObj]
  split
  · rfl
  · rename_i hl
    simp only [true_and, Nat.not_lt] at hl
    simp [HoldState.obj, List.getElem?_eq_none hl]

-- All objects of the program below are deleted in the end.
example : ∀ k, ((HoldState.init [1, 2, 3]).run parquetDecode [.openRead 0, .readSlice 1 2, .del 0, .del 1, .del 2]).obj k = none := by
  intro k
  rcases k with _ | _ | _ | k
  · decide +kernel
  · decide +kernel
  · decide +kernel
  · rfl

/-- C106 (exactly when): the buffer is given back without the lock if and only if at some point `read_record` or `peek_record`
returns `None` and the record reader is the last object that refers to the buffer. -/
theorem C106_iff (mem : Bytes) (as : List HoldAct) :
    ReleasedLocked ((HoldState.init mem).run parquetDecode as) ↔
      ∀ pre a post, as = pre ++ a :: post → ∀ i r, IsRead a i →
        ((HoldState.init mem).run parquetDecode pre).obj i = some (.reader r) → r.holds = true → ReturnsNone r →
        HeldBesides ((HoldState.init mem).run parquetDecode pre) i := by
  rw [run_bad as _ (init_inv mem)]
  constructor
  · rintro ⟨_, h⟩ pre a post e i r hr ho hh hn
    refine Classical.byContradiction fun hb => h pre a post e ⟨?_, i, r, hr, ho, hn, hb⟩
    exact (alive_of_obj ho).mpr (.inl hh)
  · intro h
    refine ⟨by intro l hl; simp [HoldState.init] at hl, ?_⟩
    rintro pre a post e ⟨hal, i, r, hr, ho, hn, hb⟩
    rcases (alive_of_obj ho).mp hal with hh | hh
    · exact hb (h pre a post e i r hr ho hh hn)
    · exact hb hh

/-- C106 (partial: the store is kept until the last call of a record reader): the buffer is given back with the lock.  Missing: programs that
let the store go before, see below. -/
theorem C106_store_partial (mem : Bytes) (as : List HoldAct)
    (h : ∀ pre a post i, as = pre ++ a :: post → IsRead a i → .del 0 ∉ pre) :
    ReleasedLocked ((HoldState.init mem).run parquetDecode as) := by
  rw [C106_iff]
  intro pre a post e i r hr ho _ _
  have h0 := run_store parquetDecode 0 pre (HoldState.init mem) rfl (h pre a post i e hr)
  refine ⟨0, .store, ?_, h0, rfl⟩
  rintro rfl
  rw [h0] at ho
  cases ho

/-- C106 (partial: no record readers): the buffer is given back with the lock, also by data readers and their threads. -/
theorem C106_data_reader_partial (mem : Bytes) (as : List HoldAct) (h : ∀ a ∈ as, ∀ i, ¬ IsRead a i) :
    ReleasedLocked ((HoldState.init mem).run parquetDecode as) := by
  refine C106_store_partial mem as fun pre a post i e hr => ?_
  exact absurd hr (h a (by rw [e]; simp) i)

/-- A program that reads all records of a Parquet store and keeps only the reader. -/
def readAndForget : List HoldAct := [.openRead 0, .newReader 1, .del 0, .del 1, .readRecord 2, .del 3, .readRecord 2]

theorem minimal_ne {x : Bytes} (h : MinimalParquet x) : x ≠ [] := by
  have := parquetDecode_got x [] h true
  rintro rfl
  simp [parquetDecode] at this

/-- C106 (violated): `reader = ParquetRecordReader(InMemoryStore(x).open_read())` and `while reader.read_record() is not None: …` over any Parquet file give the
buffer of `x` back in a thread that does not hold the interpreter lock. -/
theorem C106_iterate_violated (x : Bytes) (h : MinimalParquet x) :
    ((HoldState.init x).run parquetDecode readAndForget).released = [false] := by
  have hne := minimal_ne h
  have hg := parquetDecode_got x [] h false
  rw [List.append_nil] at hg
  have he : ∀ b, parquetDecode [] b = .more [] 0 := fun _ => rfl
  simp [readAndForget, HoldState.run, HoldState.step, HoldState.act, HoldState.init, HoldState.obj, HoldState.push, HoldState.newReader,
    HoldState.setStream, HoldState.setObj, HoldState.result, HoldState.alive, HoldState.holds, HoldState.streamHolds, HoldReader.holds,
    HoldReader.read, HoldReader.readCore, OwnReader.open, OwnReader.read, OwnReader.readCore, hne, hg, he, HoldAct.locked]

/-- A smallest Parquet file. -/
def smallestParquet : Bytes := [0x50, 0x41, 0x52, 0x31] ++ [0x15, 2, 0x19, 0x2c, 0, 0, 0, 0, 0] ++ [9, 0, 0, 0] ++ [0x50, 0x41, 0x52, 0x31]

theorem smallestParquet_minimal : MinimalParquet smallestParquet := by
  refine ⟨⟨[], [0x15, 2, 0x19, 0x2c, 0, 0, 0, 0, 0], by decide, by decide, by decide,
    ⟨0x15, by decide, by decide⟩, by decide⟩, ?_⟩
  intro y hy hl
  apply hy.eq_of_length
  have h1 := looks_length hl
  have h2 := hy.length_le
  simp [smallestParquet] at h2 ⊢
  omega

/-- C106 (violated): the property fails. -/
theorem C106_violated : ¬ ∀ mem as, ReleasedLocked ((HoldState.init mem).run parquetDecode as) := by
  intro h
  have := h smallestParquet readAndForget
  unfold ReleasedLocked at this
  rw [C106_iterate_violated _ smallestParquet_minimal] at this
  simpa using this false

-- The same calls with the store kept until the end: given back with the lock, and the hypothesis of the partial theorem holds.
example : ((HoldState.init smallestParquet).run parquetDecode
    [.openRead 0, .newReader 1, .del 1, .readRecord 2, .del 3, .readRecord 2, .del 0, .del 2]).released = [true] := by decide +kernel

-- With a data reader: not while its threads hold references, then at its end.
example : ((HoldState.init smallestParquet).run parquetDecode
    [.newDataReader 0, .del 0, .background 1 2, .del 1, .background 1 0]).released = [] ∧
  ((HoldState.init smallestParquet).run parquetDecode
    [.newDataReader 0, .del 0, .background 1 2, .del 1, .background 1 0, .del 1]).released = [true] := by decide +kernel

-- A record that is kept keeps the buffer; so does a peeked one.
example : ((HoldState.init smallestParquet).run parquetDecode
    [.openRead 0, .newReader 1, .del 0, .del 1, .readRecord 2, .readRecord 2, .del 2]).released = [] ∧
  ((HoldState.init smallestParquet).run parquetDecode
    [.openRead 0, .newReader 1, .del 0, .del 1, .peekRecord 2, .del 3, .peekRecord 2, .del 4, .readRecord 2, .del 5, .peekRecord 2]).released =
    [false] := by decide +kernel

-- A closed stream lets the buffer go; a reader made from a stream that is not at its start keeps the stream.
example : ((HoldState.init smallestParquet).run parquetDecode [.openRead 0, .del 0, .close 1]).released = [true] ∧
  ((HoldState.init smallestParquet).run parquetDecode [.openRead 0, .move 1 3, .newReader 1, .del 0, .del 1, .readRecord 2]).released = [] ∧
  ((HoldState.init smallestParquet).run parquetDecode [.openRead 0, .readSlice 1 3, .del 0, .close 1]).released = [] := by decide +kernel

end Mlio
