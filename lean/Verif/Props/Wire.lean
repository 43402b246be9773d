import Verif.Proofs.Wire
import Verif.Props.ProtoReader

/-!
# C112: protobuf messages
-/

namespace Mlio
open Spec

/-- **C112**: the bits of an instance have fields exactly if they are a sequence of fields of the wire format, and these are the ones; in all other cases there is no message. -/
theorem C112_fields (bs : Bytes) :
    (∀ fs, wireFields bs = some fs ↔ Wire fs bs) ∧ ((¬ ∃ fs, Wire fs bs) → bs.length < 2 ^ 31 → parseProto bs = .ok none) := by
  refine ⟨wireFields_iff bs, fun h hl => ?_⟩
  unfold parseProto
  rw [Nat.mod_eq_of_lt (by omega), if_pos hl, List.take_length]
  unfold parseRecord readMessage
  cases hw : wireFields bs with
  | none => rfl
  | some fs => exact absurd ⟨fs, (wireFields_iff bs fs).1 hw⟩ h

theorem parseProto_small {bs : Bytes} (hl : bs.length < 2 ^ 31) : parseProto bs = .ok (parseRecord bs) := by
  unfold parseProto
  rw [Nat.mod_eq_of_lt (by omega), if_pos hl, List.take_length]

/-- **C112**: every message that is written as protobuf – any labels and features, of any of the three types, dense or sparse, of any size below 2 GiB – is read back as it was. -/
theorem C112_roundtrip (m : Msg) (h : m.Fits) : parseProto m.write = .ok (some m.record) := by
  rw [parseProto_small (by have := h.size; omega)]
  unfold parseRecord
  rw [readMessage_wire (write_wire m h), fields_read m h]

/-- **C112**: fields that `recordio_protobuf.proto` does not know, or that the reader does not use, groups, and the order of the two maps make no difference, wherever they are. -/
theorem C112_unknown (m : Msg) (h : m.Fits) (fs : List (Nat × WireValue)) (bs : Bytes) (hw : Wire fs bs) (hl : bs.length < 2 ^ 31)
    (hf : fs.filter inMaps = m.fields.filter inMaps) : parseProto bs = .ok (some m.record) := by
  rw [parseProto_small hl]
  unfold parseRecord
  rw [readMessage_wire hw, eachField_used, hf, ← eachField_used, fields_read m h]

/-- **C112**: if a name occurs several times among the features, its last value counts. -/
theorem C112_last (es : List (Bytes × PValue Nat)) (h : ∀ e ∈ es, PValueFits e.2) (hl : (es.flatMap (writeEntry 1)).length < 2 ^ 31 - 16) :
    ∃ r, parseProto (es.flatMap (writeEntry 1)) = .ok (some r) ∧ r.label = [] ∧ (r.features.map (·.1)).Nodup ∧
      ∀ name, r.features.lookup name = es.reverse.lookup name := by
  obtain ⟨r, h1, h2, h3, h4⟩ := features_last es ⟨[], []⟩ h hl (by simp)
  refine ⟨r, ?_, h2, h3, fun n => by rw [h4 n]; simp⟩
  rw [parseProto_small (by omega)]
  unfold parseRecord
  rw [readMessage_wire (entries_wire 1 (by decide) (by decide) es h hl), h1]

/-- **C112**: the values, keys and dimensions of a tensor may be written packed, one by one, or in any number of pieces of either kind, with other fields between them: the tensor
has all of them, in order. -/
theorem C112_pieces (dt : DataType) (hd : dt = .float32 ∨ dt = .float64 ∨ dt = .int32) (name : Bytes)
    (ps : List ((Nat × WireValue) × PTensor Nat)) (hp : ∀ p ∈ ps, Adds dt p.1 p.2) (bs : Bytes) (hw : Wire (ps.map (·.1)) bs)
    (hl : (block 1 (block 1 name ++ block 2 (block (if dt = .float32 then 2 else if dt = .float64 then 3 else 7) bs))).length < 2 ^ 31 - 16) :
    parseProto (block 1 (block 1 name ++ block 2 (block (if dt = .float32 then 2 else if dt = .float64 then 3 else 7) bs))) =
      .ok (some ⟨[], [(name, .tensor dt ⟨ps.flatMap (·.2.values), ps.flatMap (·.2.keys), ps.flatMap (·.2.shape)⟩)]⟩) := by
  rw [parseProto_small (by omega)]
  have l1 := Nat.lt_of_le_of_lt (block_length _ _) hl
  have l2 := l1
  simp only [List.length_append] at l2
  have b1 := block_length 1 name
  have b2 := block_length 2 (block (if dt = .float32 then 2 else if dt = .float64 then 3 else 7) bs)
  have l3 : (block (if dt = .float32 then 2 else if dt = .float64 then 3 else 7) bs).length < 2 ^ 31 - 16 := by omega
  have l4 := Nat.lt_of_le_of_lt (block_length _ _) l3
  have ht : readMessage (tensorField dt) ⟨[], [], []⟩ bs = some ⟨ps.flatMap (·.2.values), ps.flatMap (·.2.keys), ps.flatMap (·.2.shape)⟩ := by
    rw [readMessage_wire hw, adds_all dt hd ps hp]
    simp
  have hv : readMessage valueField .unset (block (if dt = .float32 then 2 else if dt = .float64 then 3 else 7) bs) =
      some (.tensor dt ⟨ps.flatMap (·.2.values), ps.flatMap (·.2.keys), ps.flatMap (·.2.shape)⟩) := by
    rcases hd with rfl | rfl | rfl
    · rw [readMessage_wire (wire_block (by decide) (by decide) l4)]
      simp [eachField, valueField, PValue.tensorOr, ht]
    · rw [readMessage_wire (wire_block (by decide) (by decide) l4)]
      simp [eachField, valueField, PValue.tensorOr, ht]
    · rw [readMessage_wire (wire_block (by decide) (by decide) l4)]
      simp [eachField, valueField, PValue.tensorOr, ht]
  have he : readMessage entryField ([], .unset) (block 1 name ++ block 2 (block (if dt = .float32 then 2 else if dt = .float64 then 3 else 7) bs)) =
      some (name, .tensor dt ⟨ps.flatMap (·.2.values), ps.flatMap (·.2.keys), ps.flatMap (·.2.shape)⟩) := by
    rw [readMessage_wire (wire_append (wire_block (by decide) (by decide) (by omega)) (wire_block (by decide) (by decide) (by omega)))]
    simp [eachField, entryField, hv]
  unfold parseRecord
  rw [readMessage_wire (wire_block (by decide) (by decide) l1)]
  simp [eachField, recordField, he, putEntry]

/-- **C112**: a label or feature that is not well formed inside – as an entry, in its value, or in the fields or packed numbers of its tensor – makes the whole no message. -/
theorem C112_inside (fs : List (Nat × WireValue)) (bs : Bytes) (hw : Wire fs bs) (hl : bs.length < 2 ^ 31) (number : Nat) (hn : number = 1 ∨ number = 2)
    (b : Bytes) (hf : (number, .block b) ∈ fs)
    (hb : (¬ ∃ gs, Wire gs b) ∨ ∃ gs v, Wire gs b ∧ (2, .block v) ∈ gs ∧
      ((¬ ∃ hs, Wire hs v) ∨ ∃ hs member x, Wire hs v ∧ (member, .block x) ∈ hs ∧ Broken member x)) : parseProto bs = .ok none := by
  have he : readMessage entryField ([], .unset) b = none := by
    rcases hb with h | ⟨gs, v, h1, h2, h3⟩
    · unfold readMessage
      rw [wireFields_none h]
    · rw [readMessage_wire h1]
      refine eachField_none entryField (2, .block v) (fun a => ?_) gs _ h2
      have hv : readMessage valueField a.2 v = none := by
        rcases h3 with h3 | ⟨hs, member, x, k1, k2, k3⟩
        · simp [readMessage, wireFields_none h3]
        · rw [readMessage_wire k1]
          exact eachField_none valueField (member, .block x) (broken_value k3) hs _ k2
      simp [entryField, hv]
  rw [parseProto_small hl]
  unfold parseRecord
  rw [readMessage_wire hw]
  congr 1
  refine eachField_none recordField (number, .block b) (fun a => ?_) fs _ hf
  rcases hn with rfl | rfl <;> simp [recordField, he]

/-- **C112**: the name and the values of a feature may come in any order and several times: the last name counts, tensors of one type are joined, and another value replaces
what was before. -/
theorem C112_parts (parts : List (Bytes ⊕ PValue Nat)) (h : ∀ v, .inr v ∈ parts → PValueFits v)
    (hl : (block 1 (parts.flatMap writePart)).length < 2 ^ 31 - 16) :
    parseProto (block 1 (parts.flatMap writePart)) = .ok (some ⟨[], [joinParts parts]⟩) := by
  rw [parseProto_small (by omega)]
  have l1 := Nat.lt_of_le_of_lt (block_length _ _) hl
  obtain ⟨fs, h1, h2⟩ := parts_read parts ([], .unset) h l1
  unfold parseRecord
  rw [readMessage_wire (wire_block (by decide) (by decide) l1)]
  simp only [eachField, recordField, readMessage_wire h1, h2, putEntry]
  rfl

-- A value in front of the name, and another one of the same type behind it; then one of another type.
example : joinParts [.inr (.tensor .int32 ⟨[1], [], []⟩), .inl [97], .inr (.tensor .int32 ⟨[2], [], [2]⟩)] = ([97], .tensor .int32 ⟨[1, 2], [], [2]⟩) ∧
    joinParts [.inl [97], .inr (.tensor .int32 ⟨[1], [], []⟩), .inr .bytes, .inr .unset] = ([97], .bytes) := by
  decide

-- A feature whose value is cut off.
example : parseProto [10, 5, 10, 1, 97, 18, 12] = .ok none := by decide +kernel

-- A packed list of floats of five bytes.
example : Broken 2 [10, 5, 0, 0, 128, 63, 0] :=
  .values32 (fs := [(1, .block [0, 0, 128, 63, 0])]) (x := [0, 0, 128, 63, 0]) ((wireFields_iff _ _).1 (by decide +kernel)) (by simp) (by decide)

/-- **C112** is violated by instances of 2 GiB and more, which may be made of several frames, as their size is converted to `int`: if there are 4 GiB of anything behind a message, the
message is read as if nothing followed, although the whole is no message; and for sizes between 2 and 4 GiB memory outside the instance is read. -/
theorem C112_size_violated (m : Msg) (h : m.Fits) :
    (∀ t : Bytes, t.length = 2 ^ 32 → parseProto (m.write ++ t) = .ok (some m.record)) ∧
    (¬ ∃ fs, Wire fs (m.write ++ List.replicate (2 ^ 32) 0)) ∧
    ∀ bs : Bytes, 2 ^ 31 ≤ bs.length → bs.length < 2 ^ 32 → parseProto bs = .ub "negative size" := by
  have hs := h.size
  refine ⟨fun t ht => ?_, ?_, fun bs h1 h2 => ?_⟩
  · have := C112_roundtrip m h
    rw [parseProto_small (by omega)] at this
    unfold parseProto
    rw [List.length_append, ht, Nat.add_mod_right, Nat.mod_eq_of_lt (by omega), if_pos (by omega), List.take_left' rfl]
    exact this
  · rintro ⟨fs, hf⟩
    have h1 := (wireFields_iff _ _).2 hf
    have h2 := readAll_of (write_wire m h) [] (List.replicate (2 ^ 32) 0)
    have h3 : readAll [] (List.replicate (2 ^ 32) (0 : UInt8)) = none := by
      unfold readAll
      rw [List.length_replicate]
      generalize hn : 2 ^ 32 = n
      obtain ⟨n, rfl⟩ : ∃ k, n = k + 1 := ⟨n - 1, by omega⟩
      rw [List.replicate_succ]
      simp [readFields, readVarint]
    rw [show wireFields _ = readAll [] _ from rfl, h2, h3] at h1
    cases h1
  · unfold parseProto
    rw [Nat.mod_eq_of_lt h2, if_neg (by omega)]

/-- **C112** with C68, partial: a dataset of RecordIO files whose instances are messages written as protobuf.  With every choice of the options, under every schedule, in every epoch the reader
delivers these messages: their labels and features, in the rows of the tensors.

Missing: as for `C68_messages_partial`. -/
theorem C112_dataset_partial (R : Rng) (hR : R.Lawful) (o : ReadOptions) {m : InStream} (files : List (ProtoFile m))
    (hg : ∀ f ∈ files, f.Good) (is : List (Nat × Option Bytes)) (hi : Instances files is)
    (msgs : List Msg) (hm : ∀ x ∈ msgs, x.Fits) (hbits : is.map (·.2) = msgs.map fun x => some x.write)
    (zero : Nat) (bad : BadHandling) (s : Schema) (hs : SchemaOk s)
    (hnames : ∀ x ∈ msgs, NoClash x.record)
    (hsparse : bad = .pad ∨ bad = .padWarn → ∀ x ∈ msgs, IsBad s (some x.record) → NoSparse s (some x.record))
    (dec : Batch Inst → Except Err (Option (ProtoExample Nat))) (hdec : ProtoDecodes protoMessage zero bad s dec)
    (hlen : is.length < 2 ^ 64 - 1)
    (b : Nat) (hb : 0 < b) (halloc : ∀ a ∈ s.attrs, a.sparse = false → b * numElements a.shape.tail < 2 ^ 64)
    (l : LastHandling) (hl : l ≠ .padWarn) (P Q : Nat) (hP : 0 < P) :
    ∃ fuel0, ∀ fuel, fuel0 ≤ fuel → ∀ r,
      makeInstanceReader R o (protoCore m fuel (files.map fun f => f.opened)) = some r →
      ∀ st : PState (batched b l r) (ProtoExample Nat), Reachable P Q dec st →
      ∃ ms, EpochOrder o (selected o (msgs.map fun x => some x.record)) ms ∧
        (∀ (i : Nat) ex, (delivered st.out)[i]? = some ex →
          ∃ q, (deliverable (goodMessages s) bad (batches b l ms))[i]? = some q ∧ HoldsMessages zero s q ex) ∧
        (.ok none ∈ st.out →
          (delivered st.out).length = (deliverable (goodMessages s) bad (batches b l ms)).length ∧
          (bad = .error → ∀ q ∈ batches b l ms, goodMessages s q = true)) ∧
        (∀ e, .err e ∈ st.out → e = .invalidInstance ∧ bad = .error ∧
          ∃ q ∈ batches b l ms, goodMessages s q = false) ∧
        ∀ w, .ub w ∉ st.out := by
  have hmsg : messages protoMessage is = msgs.map fun x => some x.record := by
    have h1 : messages protoMessage is = (is.map (·.2)).map fun x => protoMessage (x.getD []) := by
      unfold messages
      rw [List.map_map]
      rfl
    rw [h1, hbits, List.map_map]
    refine List.map_congr_left fun x hx => ?_
    simp [protoMessage, C112_roundtrip x (hm x hx)]
  have := C68_messages_partial R hR o files hg is hi protoMessage zero bad s hs
    (by
      intro x hx
      rw [hmsg, List.mem_map] at hx
      obtain ⟨y, hy, e⟩ := hx
      cases e
      exact hnames y hy)
    (by
      intro hp x hx
      rw [hmsg, List.mem_map] at hx
      obtain ⟨y, hy, rfl⟩ := hx
      exact hsparse hp y hy)
    dec hdec hlen b hb halloc l hl P Q hP
  rw [hmsg] at this
  exact this

/-- A message with a dense and a sparse feature, a label and an identifier: the values are 1.0 and 2.0, and -1. -/
def sampleMsg : Msg :=
  { record := ⟨[([118], .tensor .float32 ⟨[0x3F800000], [], []⟩)],
      [([97], .tensor .float32 ⟨[0x3F800000, 0x40000000], [], []⟩), ([98], .tensor .int32 ⟨[0xFFFFFFFF], [300], [7, 100]⟩)]⟩
    uid := some [120] }

/-- The bytes of the message, as `protoc --encode` prints them. -/
example : sampleMsg.write =
    [10, 17, 10, 1, 97, 18, 12, 18, 10, 10, 8, 0, 0, 128, 63, 0, 0, 0, 64,
     10, 27, 10, 1, 98, 18, 22, 58, 20, 10, 10, 255, 255, 255, 255, 255, 255, 255, 255, 255, 1, 18, 2, 172, 2, 26, 2, 7, 100,
     18, 13, 10, 1, 118, 18, 8, 18, 6, 10, 4, 0, 0, 128, 63, 26, 1, 120] := by
  decide +kernel

-- The hypotheses are met by the message, and what is read is what was written.
theorem sampleMsg_fits : sampleMsg.Fits := by
  refine ⟨by decide, ?_, by decide +kernel⟩
  intro e he
  simp only [sampleMsg, List.cons_append, List.nil_append, List.mem_cons, List.not_mem_nil, or_false] at he
  rcases he with rfl | rfl | rfl <;> simp [PValueFits]

example : parseProto sampleMsg.write = .ok (some sampleMsg.record) := C112_roundtrip _ sampleMsg_fits

-- A group with an unknown field in it, and an unknown number, in front of the message.
example : ∃ fs bs, Wire fs ([0x7B, 8, 5, 0x7C, 0xA0, 1, 9] ++ bs) ∧ fs.filter inMaps = sampleMsg.fields.filter inMaps ∧ bs = sampleMsg.write := by
  refine ⟨(20, .varint 9) :: sampleMsg.fields, sampleMsg.write, (wireFields_iff _ _).1 (by decide +kernel), by decide +kernel, rfl⟩

-- Two values one by one, an unknown field, and a packed one; a number that is not written in the shortest way.
example : (∀ p ∈ [((1, .fixed32 5), ⟨[5], [], []⟩), ((4, .varint 9), ⟨[], [], []⟩), ((1, .block ([6].flatMap (fixed 4))), ⟨[6], [], []⟩)],
      Adds .float32 p.1 p.2) ∧
    Wire [(1, .fixed32 5), (4, .varint 9), (1, .block ([6].flatMap (fixed 4)))] [13, 5, 0, 0, 0, 32, 0x89, 0, 10, 4, 6, 0, 0, 0] := by
  refine ⟨?_, (wireFields_iff _ _).1 (by decide +kernel)⟩
  intro p hp
  simp only [List.mem_cons, List.not_mem_nil, or_false] at hp
  rcases hp with rfl | rfl | rfl
  · exact .value 5 (by decide)
  · exact .other 4 _ (by decide) (by decide) (by decide)
  · exact .values [6] (by decide)

-- Bytes that are no message: a field without its value, field 0, and a group that is not closed.
example : parseProto [10] = .ok none ∧ parseProto [0, 0] = .ok none ∧ parseProto [0x7B] = .ok none ∧ parseProto [10, 5, 1] = .ok none := by
  decide +kernel

end Mlio
