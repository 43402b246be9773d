import Verif.Proofs.ProtoReader

/-!
# C68: from RecordIO-protobuf files to examples
-/

namespace Mlio
open Spec

variable {V : Type}

/-- **C68**, partial: for every dataset of RecordIO files – valid frames, instances in one frame or split over several, in
memory or in any streams that keep to the contract of `read` – with every choice of the options, under every schedule, in
every epoch: what the reader has delivered are the first of the deliverable batches of the selected messages, in the order
of the epoch, the tensors of each message in its row; when it has signalled the end, it is all of them, and then no bad
message was to be reported; it fails only if a message is bad and that is to be an error.

Missing: messages with clashing names (`C41_name_clash_violated`); in the modes `pad` and `pad_warn` bad messages with
values for sparse attributes (`C40_row_drift_violated`); what C40 leaves open about padding. -/
theorem C68_messages_partial (R : Rng) (hR : R.Lawful) (o : ReadOptions) {m : InStream} (files : List (ProtoFile m))
    (hg : ∀ f ∈ files, f.Good) (is : List (Nat × Option Bytes)) (hi : Instances files is)
    (parse : Bytes → Option (PRecord V)) (zero : V) (bad : BadHandling) (s : Schema) (hs : SchemaOk s)
    (hnames : ∀ x, some x ∈ messages parse is → NoClash x)
    (hsparse : bad = .pad ∨ bad = .padWarn → ∀ x ∈ messages parse is, IsBad s x → NoSparse s x)
    (dec : Batch Inst → Except Err (Option (ProtoExample V))) (hdec : ProtoDecodes parse zero bad s dec)
    (hlen : is.length < 2 ^ 64 - 1)
    (b : Nat) (hb : 0 < b) (halloc : ∀ a ∈ s.attrs, a.sparse = false → b * numElements a.shape.tail < 2 ^ 64)
    (l : LastHandling) (hl : l ≠ .padWarn) (P Q : Nat) (hP : 0 < P) :
    ∃ fuel0, ∀ fuel, fuel0 ≤ fuel → ∀ r,
      makeInstanceReader R o (protoCore m fuel (files.map fun f => f.opened)) = some r →
      ∀ st : PState (batched b l r) (ProtoExample V), Reachable P Q dec st →
      ∃ ms, EpochOrder o (selected o (messages parse is)) ms ∧
        (∀ (i : Nat) ex, (delivered st.out)[i]? = some ex →
          ∃ q, (deliverable (goodMessages s) bad (batches b l ms))[i]? = some q ∧ HoldsMessages zero s q ex) ∧
        (.ok none ∈ st.out →
          (delivered st.out).length = (deliverable (goodMessages s) bad (batches b l ms)).length ∧
          (bad = .error → ∀ q ∈ batches b l ms, goodMessages s q = true)) ∧
        (∀ e, .err e ∈ st.out → e = .invalidInstance ∧ bad = .error ∧
          ∃ q ∈ batches b l ms, goodMessages s q = false) ∧
        ∀ w, .ub w ∉ st.out := by
  obtain ⟨fuel0, hy⟩ := protoCore_renews files hg is hi
  refine ⟨fuel0, fun fuel hf r hm st hr => ?_⟩
  have hflat : (number [] is).map (fun i => parse (i.bits.getD [])) = messages parse is := by
    have := congrArg (List.map parse) (number_bits is [])
    rw [List.map_map, List.map_map] at this
    exact this
  have hlen' : (number [] is).length < 2 ^ 64 - 1 := by
    rw [← List.length_map (fun i : Inst => parse (i.bits.getD [])), hflat, messages, List.length_map]; exact hlen
  obtain ⟨ys, h1, h2, h3, h4, h5⟩ := dataset_epochs R hR o _ _ (hy fuel hf) hlen' b hb l hl r hm P Q hP dec st hr
  have hmem : ∀ i ∈ ys, parse (i.bits.getD []) ∈ messages parse is := by
    intro i hi
    have hi := selected_mem o _ i (epochOrder_mem o _ _ h1 i hi)
    rw [← hflat]
    exact List.mem_map.2 ⟨i, hi, rfl⟩
  have hd : ∀ q ∈ batches b l ys, _ := fun q hq =>
    protoDecodes_batch hs hdec q
      ⟨by rw [List.length_map]; exact (batches_fit b hb l ys q hq).1,
        fun a ha hsp => Nat.lt_of_le_of_lt (Nat.mul_le_mul_right _ (batches_size b hb l ys q hq)) (halloc a ha hsp),
        by
          intro x hx y hy
          obtain ⟨i, hi, rfl⟩ := List.mem_map.1 hx
          exact hnames y (hy ▸ hmem i (batches_mem b hb l ys q hq i hi))⟩
      (fun hp i hi => hsparse hp _ (hmem i (batches_mem b hb l ys q hq i hi)))
  obtain ⟨e1, e2⟩ := examples_deliverable dec (fun q => q.map fun i => parse (i.bits.getD []))
    (goodMessages s) bad (HoldsMessages zero s) (batches b l ys) hd
  refine ⟨ys.map fun i => parse (i.bits.getD []), ?_, ?_, ?_, ?_, h5⟩
  · rw [← hflat, selected_map]
    exact epochOrder_map _ o _ _ h1
  · intro i ex hi
    obtain ⟨t, ht⟩ := h2
    rw [batches_map]
    exact e2 i ex (by
      rw [← ht, List.getElem?_append_left (List.getElem?_eq_some_iff.1 hi).1]; exact hi)
  · intro hx
    obtain ⟨g1, g2⟩ := h3 hx
    rw [batches_map]
    refine ⟨by rw [g1, e1], ?_⟩
    rintro rfl q' hq'
    obtain ⟨q, hq, rfl⟩ := List.mem_map.1 hq'
    cases hgq : goodMessages s (q.map fun i => parse (i.bits.getD [])) with
    | true => rfl
    | false =>
      have := hd q hq
      rw [hgq] at this
      obtain ⟨x, hx⟩ := g2 q hq
      rw [hx] at this
      simp at this
  · intro e he
    obtain ⟨q, hq, hd'⟩ := h4 e he
    have := hd q hq
    rw [batches_map]
    split at this
    · obtain ⟨ex, h, _⟩ := this
      rw [hd'] at h
      cases h
    · next hn =>
      simp only [Bool.or_eq_true, not_or, Bool.not_eq_true] at hn
      split at this
      · next hbad =>
        rw [hd'] at this
        cases this
        exact ⟨rfl, hbad, _, List.mem_map.2 ⟨q, hq, rfl⟩, hn.1.1⟩
      · rw [hd'] at this
        cases this

/-- **C68**: the schema that such a reader infers is that of the first message of its first epoch; an empty dataset has none. -/
theorem C68_schema (R : Rng) (hR : R.Lawful) (o : ReadOptions) {m : InStream} (files : List (ProtoFile m))
    (hg : ∀ f ∈ files, f.Good) (is : List (Nat × Option Bytes)) (hi : Instances files is)
    (parse : Bytes → Option (PRecord V)) (hlen : is.length < 2 ^ 64 - 1) (b : Nat) :
    ∃ fuel0, ∀ fuel, fuel0 ≤ fuel → ∀ r,
      makeInstanceReader R o (protoCore m fuel (files.map fun f => f.opened)) = some r →
      ∃ ms, EpochOrder o (selected o (messages parse is)) ms ∧ protoInfer parse b r = protoSchema b ms.head? := by
  obtain ⟨fuel0, hy⟩ := protoCore_renews files hg is hi
  refine ⟨fuel0, fun fuel hf r hm => ?_⟩
  have hflat : (number [] is).map (fun i => parse (i.bits.getD [])) = messages parse is := by
    have := congrArg (List.map parse) (number_bits is [])
    rw [List.map_map, List.map_map] at this
    exact this
  have hlen' : (number [] is).length < 2 ^ 64 - 1 := by
    rw [← List.length_map (fun i : Inst => parse (i.bits.getD [])), hflat, messages, List.length_map]; exact hlen
  obtain ⟨ys, h1, h2⟩ := epoch_yields R hR o _ _ (hy fuel hf) hlen' r hm r.init (Or.inl rfl)
  refine ⟨ys.map fun i => parse (i.bits.getD []), ?_, ?_⟩
  · rw [← hflat, selected_map]
    exact epochOrder_map _ o _ _ h1
  · cases ys with
    | nil =>
      obtain ⟨c, e, _⟩ := h2.read_nil
      simp only [protoInfer, e, List.map_nil, List.head?_nil]
    | cons y ys =>
      obtain ⟨c, e, _⟩ := h2.read_cons
      simp only [protoInfer, e, List.map_cons, List.head?_cons]

/-- There is a decode function of the reader, if batches are decoded serially. -/
theorem protoDecodes_exists (parse : Bytes → Option (PRecord V)) (zero : V) (h : BadHandling) (s : Schema)
    (hser : ∀ n, protoRunsSerially h s n = true) : ∃ dec, ProtoDecodes parse zero h s dec := by
  refine ⟨fun q => toDecode (fun _ => protoDecode zero h s q.size (q.instances.map fun i => parse (i.bits.getD []))) q,
    fun q => ⟨_, ?_, rfl⟩⟩
  unfold ProtoBatch
  rw [if_pos (hser _)]

/-- A stream that delivers one byte at a time. -/
def byteIn : InStream where
  σ := Bytes
  read s n := (.ok (s.take (min n 1)), s.drop (min n 1))

theorem byteIn_reads (ns : List Nat) : ∀ x : Bytes, TextReads false x ns (byteIn.reads x ns) := by
  induction ns with
  | nil => intro x; exact .nil x
  | cons n ns ih =>
    intro x
    cases n with
    | zero => exact .zero x ns _ (by simpa [byteIn] using ih x)
    | succ n =>
      cases x with
      | nil =>
        have h := TextReads.done (faulty := false) (n + 1) ns _ rfl (ih [])
        simpa [InStream.reads, byteIn] using h
      | cons c x =>
        have h := TextReads.more (faulty := false) [c] x (n + 1) ns _ (by simp) (by simp) (ih x)
        simpa [InStream.reads, byteIn] using h

/-- Two files: a message in one frame and the first part of another, and the rest of the latter. -/
def sampleProto : List (ProtoFile byteIn) :=
  [⟨[⟨0, [1, 7, 5], [0]⟩, ⟨1, [2], [0, 0, 0]⟩], .memory (recordioFile [⟨0, [1, 7, 5], [0]⟩, ⟨1, [2], [0, 0, 0]⟩])⟩,
   ⟨[⟨3, [9, 8], [0, 0]⟩], .stream (recordioFile [⟨3, [9, 8], [0, 0]⟩] : Bytes)⟩]

/-- The label, a value and its key. -/
def sampleParse : Bytes → Option (PRecord Nat)
  | [y, v, k] => some (exRecord y.toNat [v.toNat] [k.toNat])
  | _ => none

/-- The hypotheses of `C68_messages_partial` hold for the sample: one good message, and a bad one, whose key is invalid. -/
example : (∀ f ∈ sampleProto, f.Good) ∧ Instances sampleProto [(0, some [1, 7, 5]), (1, some [2, 9, 8])] ∧
    messages sampleParse [(0, some [1, 7, 5]), (1, some [2, 9, 8])] = [some (exRecord 1 [7] [5]), some (exRecord 2 [9] [8])] ∧
    NoClash (exRecord 1 [7] [5]) ∧ NoClash (exRecord 2 [9] [8]) ∧
    Conforms exSchema (exRecord 1 [7] [5]) ∧ IsBad exSchema (some (exRecord 2 [9] [8])) ∧
    ∃ dec, ProtoDecodes sampleParse 0 .skip exSchema dec := by
  refine ⟨?_, ?_, rfl, by unfold NoClash; decide, by unfold NoClash; decide, ?_, ?_, ?_⟩
  · intro f hf
    simp only [sampleProto, List.mem_cons, List.not_mem_nil, or_false] at hf
    rcases hf with rfl | rfl
    · refine ⟨?_, rfl⟩
      intro x hx
      simp only [List.mem_cons, List.not_mem_nil, or_false] at hx
      rcases hx with rfl | rfl <;> exact ⟨by decide, by decide, by decide, by decide⟩
    · refine ⟨?_, fun ns _ => byteIn_reads ns _⟩
      intro x hx
      simp only [List.mem_cons, List.not_mem_nil, or_false] at hx
      subst hx
      exact ⟨by decide, by decide, by decide, by decide⟩
  · exact .complete (.split [] (.eof rfl))
  · exact (C41_accepted_iff_partial true exSchema exSchema_ok _ (by unfold NoClash; decide)).1.1 rfl
  · intro x hx
    cases hx
    intro hc
    exact absurd ((C41_accepted_iff_partial false exSchema exSchema_ok _ (by unfold NoClash; decide)).1.2 hc) (by decide)
  · exact protoDecodes_exists _ _ _ _ (fun n => by simp [protoRunsSerially, exSchema, exSparse])

end Mlio
