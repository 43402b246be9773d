import Verif.Proofs.OwnReader
import Verif.Proofs.Cuts
import Verif.Props.ChunkHeap
import Verif.Props.RecordIO

/-! # C95: Writing into records -/

namespace Mlio
open Spec

/-- **C95**, other records: over every stream (short reads, errors at any point), every chunk size, all contents of
fresh memory and every sequence of reads, copies, releases and writes: the existing records show what they would show
if each record had an array of bytes of its own, which only the copies of the record share. -/
theorem C95_records_partial (dec : Bytes → Bool → Dec Record) (off : Bytes → Bool → Nat) (hd : Located dec off)
    (junk : Nat → UInt8) (F : Filler) (f : F.σ) (size : Nat) (os : List PokeOp) :
    let q := (Heap.init size).pokeOps junk F dec off f os
    q.2.1.held.map (fun r => deref q.2.1.blocks r.1) = (Cells.after ⟨[], []⟩ os q.1).shown ∧
    ∀ x ∈ (Cells.after ⟨[], []⟩ os q.1).shown, x ≠ none := by
  obtain ⟨L, hL⟩ := pokeOps_sep junk F dec off hd os (Heap.init size) f [] ⟨[], []⟩
    ⟨by intro r hr; simp [Heap.init] at hr, by intro b hb; simp [Heap.init] at hb⟩ (by simp [Heap.init])
    ⟨rfl, rfl, by simp, by simp, by simp⟩
  exact hL.shown

/-- **C95**, later reads: whatever is written into records, every call returns what it returns without the writes. -/
theorem C95_reads_partial (dec : Bytes → Bool → Dec Record) (off : Bytes → Bool → Nat) (hd : Located dec off)
    (junk : Nat → UInt8) (F : Filler) (f : F.σ) (size : Nat) (os : List PokeOp) :
    ((Heap.init size).pokeOps junk F dec off f os).1 = ((Heap.init size).ops junk F dec off f (withoutWrites os)).1 :=
  pokeOps_agree junk F dec off hd os _ _ f [] ⟨[], []⟩ ⟨rfl, rfl, rfl, rfl, rfl, rfl, rfl, fun _ _ _ => rfl⟩
    ⟨by intro r hr; simp [Heap.init] at hr, by intro b hb; simp [Heap.init] at hb⟩ (by simp [Heap.init])
    ⟨rfl, rfl, by simp, by simp, by simp⟩

-- Both hypotheses are met by all formats (`C50_all_formats`).  Two RecordIO records in one chunk, the first is
-- overwritten with bytes that look like a header, the second is as in the file.
example :
    let q := (Heap.init 64).pokeOps (fun _ => 7) streamFiller recordioDecode (fun _ _ => 8) ⟨twoFrames, []⟩
      [.op (.read 9), .poke 0 0 0x0a, .poke 0 1 0x23, .poke 0 2 0xd7, .poke 0 3 0xce, .op (.read 9), .poke 0 1 77]
    q.1 = [.ok (some ⟨0, [1, 2, 3]⟩), .ok (some ⟨0, [4, 5]⟩)] ∧
    q.2.1.held.map (fun r => deref q.2.1.blocks r.1) = [some [4, 77], some [0x0a, 0x23, 0xd7]] := by decide

/-- `peek_record` (`record_reader_base.cc` 31-37) reads a record, keeps it, and returns a copy. -/
def peekOps : List PokeOp := [.op (.read 9), .op (.copy 0)]

/-- **C95 is false for a record that was peeked.** A byte is written into the record that `peek_record` returned; the
record that the next `read_record` returns (the one that was kept) is not the one in the file any more. -/
theorem C95_peek_violated :
    let q := (Heap.init 64).pokeOps (fun _ => 7) streamFiller recordioDecode (fun _ _ => 8) ⟨twoFrames, []⟩
      (peekOps ++ [.poke 0 0 99])
    q.2.1.held.map (fun r => deref q.2.1.blocks r.1) = [some [99, 2, 3], some [99, 2, 3]] ∧
    q.1.head? = some (.ok (some ⟨0, [1, 2, 3]⟩)) := by decide

/-- **C95**, records of in-memory stores: the writes into a record are not seen by the reads that follow, however many
records were read before, and between reading and writing. -/
theorem C95_memory_partial (dec : Bytes → Bool → Dec Record) (off : Bytes → Bool → Nat) (hd : Located dec off)
    (mem : Bytes) (n m k j : Nat) (v : UInt8) (r : Record) (place : Nat) (z z' : OwnReader)
    (hz : z = ((OwnReader.open mem).readN dec off n).2) (hr : (z.read dec off).1 = .ok (some (r, place)))
    (hj : j < r.payload.length) (hw : (((z.read dec off).2.readN dec off m).2).poke .object place j v = .ok z') :
    (z'.readN dec off k).1 = (((z.read dec off).2.readN dec off m).2.readN dec off k).1 := by
  have h0 : (OwnReader.open mem).Ok := ⟨Nat.le_refl _, fun _ => rfl⟩
  obtain ⟨_, o1, _⟩ := own_stepN dec off hd n _ h0
  rw [← hz] at o1
  obtain ⟨_, o2, _, o4⟩ := own_step dec off hd 3 z o1
  obtain ⟨p1, p2, p3⟩ := o4 r place hr
  obtain ⟨q1, q2, q3⟩ := own_stepN dec off hd m _ o2
  obtain ⟨s1, s2⟩ := q3 p1
  cases hw
  refine own_poked dec off hd k ((z.read dec off).2.readN dec off m).2 _ s2 s2 ?_
  simp only
  rw [List.drop_set_of_lt]
  have : place + r.payload.length ≤ (z.read dec off).2.start := p2
  have : (z.read dec off).2.start ≤ ((z.read dec off).2.readN dec off m).2.start := s1
  omega

/-- The reads are those of `C01`-`C15` (where the reader has no memory). -/
theorem C95_memory_reads (dec : Bytes → Bool → Dec Record) (off : Bytes → Bool → Nat) (hd : Located dec off)
    (mem : Bytes) (n : Nat) : ((OwnReader.open mem).readN dec off n).1 = MemReader.readN dec n ⟨mem, []⟩ :=
  own_readN dec off hd n _ _ (own_open mem)

/-- A write into the first record of a RecordIO file in memory makes it another file. -/
theorem recordioFile_set (f : Frame) (fs : List Frame) (j : Nat) (v : UInt8) (hj : j < f.payload.length) :
    (recordioFile (f :: fs)).set (8 + j) v = recordioFile ({ f with payload := f.payload.set j v } :: fs) := by
  have h8 : ∀ a b : Nat, (u32le a ++ u32le b).length = 8 := by intro a b; rfl
  have e : ∀ (a b c d e : Bytes), a ++ b ++ c ++ d ++ e = (a ++ b) ++ (c ++ (d ++ e)) := by
    intro a b c d e
    simp
  simp only [recordioFile, List.flatMap_cons, Frame.bytes, List.length_set]
  rw [e, e, List.set_append_right _ _ (by rw [h8]; omega), h8, Nat.add_sub_cancel_left, List.set_append_left _ _ hj]

theorem valid_set (f : Frame) (j : Nat) (v : UInt8) (h : f.Valid) : ({ f with payload := f.payload.set j v } : Frame).Valid := by
  unfold Frame.Valid at *
  simp only [List.length_set]
  exact h

theorem own_first_of (dec : Bytes → Bool → Dec Record) (off : Bytes → Bool → Nat) (x rest : Bytes) (r : Record)
    (hne : x.isEmpty = false) (he : dec [] true = .more [] 0) (hx : dec x false = .got r rest) :
    (OwnReader.open x).read dec off = (.ok (some (r, off x false)), ⟨x, false, x.length - rest.length⟩) := by
  simp only [OwnReader.read, OwnReader.open, OwnReader.readCore, hne, List.drop_length, Bool.not_false, he, if_true,
    List.drop_zero, hx, Nat.zero_add]

theorem own_first (f : Frame) (fs : List Frame) (hv : f.Valid) :
    (OwnReader.open (recordioFile (f :: fs))).read recordioDecode (fun _ _ => 8) =
      (.ok (some (⟨f.kind, f.payload⟩, 8)),
        ⟨recordioFile (f :: fs), false, (recordioFile (f :: fs)).length - (recordioFile fs).length⟩) := by
  have hne : (recordioFile (f :: fs)).isEmpty = false := by simp [recordioFile, Frame.bytes, u32le]
  have hx : recordioFile (f :: fs) = f.bytes ++ recordioFile fs := by simp [recordioFile]
  generalize recordioFile (f :: fs) = x at hne hx
  exact own_first_of recordioDecode (fun _ _ => 8) x _ _ hne rfl
    (((C02_recordio_arbitrary x false).2.1 _ _).2 ⟨f, hv, hx, rfl⟩)

/-- **C95 is false for in-memory stores.** Every RecordIO file in an in-memory store (for example in an immutable `bytes`
object): after the first record was read and a byte written into it, the store has another contents, and all readers
made later over the store return the changed record. -/
theorem C95_store_violated (f : Frame) (fs : List Frame) (hv : ∀ g ∈ f :: fs, g.Valid) (j : Nat) (v : UInt8)
    (hj : j < f.payload.length) (k : Nat) :
    ∃ z z', (OwnReader.open (recordioFile (f :: fs))).read recordioDecode (fun _ _ => 8) = (.ok (some (⟨f.kind, f.payload⟩, 8)), z) ∧
      z.poke .object 8 j v = .ok z' ∧
      ((OwnReader.open z'.mem).readN recordioDecode (fun _ _ => 8) (fs.length + 1 + k)).1 =
        .ok (some ⟨f.kind, f.payload.set j v⟩) :: fs.map (fun g => .ok (some ⟨g.kind, g.payload⟩)) ++
          List.replicate k (.ok none) := by
  have hd : Located recordioDecode (fun _ _ => 8) := (C50_all_formats {} false).1
  refine ⟨_, _, own_first f fs (hv f List.mem_cons_self), rfl, ?_⟩
  simp only
  rw [C95_memory_reads _ _ hd, recordioFile_set f fs j v hj]
  have h2 := C01_recordio_roundtrip_mem ({ f with payload := f.payload.set j v } :: fs) (by
    intro g hg
    rcases List.mem_cons.1 hg with rfl | hg
    · exact valid_set f j v (hv f List.mem_cons_self)
    · exact hv g (List.mem_cons_of_mem _ hg)) k
  rw [List.length_cons, List.map_cons] at h2
  exact h2

-- The hypotheses are met.
example : (∀ g ∈ [(⟨0, [1, 2, 3], [9]⟩ : Frame), ⟨0, [4, 5], [0, 0]⟩], g.Valid) ∧
    ∃ z', (((OwnReader.open twoFrames).read recordioDecode (fun _ _ => 8)).2).poke .object 8 1 77 = .ok z' ∧
      ((OwnReader.open z'.mem).readN recordioDecode (fun _ _ => 8) 3).1 =
        [.ok (some ⟨0, [1, 77, 3]⟩), .ok (some ⟨0, [4, 5]⟩), .ok none] := by
  refine ⟨by simp [Frame.Valid], _, rfl, by decide⟩

/-- **C95 is false for files that are mapped into memory** (the default of `File`): every RecordIO file can be read,
and a write into its first record is undefined behaviour; the process gets a signal, as the pages are read-only. -/
theorem C95_mapped_violated (f : Frame) (fs : List Frame) (hv : f.Valid) (j : Nat) (v : UInt8) :
    ∃ z, (OwnReader.open (recordioFile (f :: fs))).read recordioDecode (fun _ _ => 8) = (.ok (some (⟨f.kind, f.payload⟩, 8)), z) ∧
      z.poke .mapped 8 j v = .ub "write to read-only pages" :=
  ⟨_, own_first f fs hv, rfl⟩

end Mlio
