import Verif.Proofs.CsvReader
import Verif.Props.Protobuf
import Verif.Props.RecordIO
import Verif.Props.Instances
import Verif.Proofs.Supplies
import Verif.Spec.ProtoReader

/-!
# The RecordIO-protobuf reader as a whole: proofs
-/

namespace Mlio
open Spec

variable {V : Type}

theorem recMachine_memory_outs (m : InStream) (dec fuel) (r : MemReader) (n : Nat) :
    (recMachine m dec fuel).outs n (.memory r) = r.readN dec n := by
  induction n generalizing r with
  | zero => rfl
  | succ n ih => exact congrArg (_ :: ·) (ih _)

theorem recMachine_stream_outs (m : InStream) (dec fuel) (r : GReader m) (n : Nat) :
    (recMachine m dec fuel).outs n (.stream r) = r.readN dec fuel n := by
  induction n generalizing r with
  | zero => rfl
  | succ n ih => exact congrArg (_ :: ·) (ih _)

theorem whole_frames (fs : List Frame) (n : Nat) (hv : ∀ f ∈ fs, f.Valid) : wholeN recordioDecode n (recordioFile fs) =
    ((fs.map (fun f : Frame => (⟨f.kind, f.payload⟩ : Record))).map (fun x => Res.ok (some x)) ++
      List.replicate n (Res.ok none)).take n := by
  have h := wholeN_recordioFile fs hv n
  have tk : ∀ (m k : Nat) (x : Bytes), (wholeN recordioDecode (m + k) x).take m = wholeN recordioDecode m x := by
    intro m
    induction m with
    | zero => intro k x; simp [wholeN]
    | succ m ih =>
      intro k x
      rw [Nat.add_right_comm]
      simp [wholeN, ih]
  have h2 := congrArg (List.take n) h
  rw [Nat.add_comm, tk] at h2
  rw [h2]
  simp [List.map_map, Function.comp_def]

theorem recordio_tame : Tame recordioDecode (2 ^ 30) := by
  intro chunk ig
  unfold recordioDecode
  by_cases h : chunk.isEmpty = true
  · rw [if_pos h]
    exact ⟨Nat.le_refl _, Nat.zero_le _⟩
  · rw [if_neg h]
    rcases decodeHeader chunk with h | e | w
    · cases h with
      | none =>
        cases ig
        · exact Nat.le_refl _
        · exact ⟨Nat.le_refl _, Nat.zero_le _⟩
      | some h =>
        have hp := headerPayloadSize_lt h
        have ha := align4_eq (headerPayloadSize h) (by omega)
        simp only
        by_cases hs : headerSize + align4 (headerPayloadSize h) > chunk.length
        · rw [if_pos hs]
          cases ig
          · exact Nat.le_refl _
          · refine ⟨Nat.le_refl _, ?_⟩
            simp only [headerSize, ha]
            omega
        · rw [if_neg hs]
          unfold subslice
          by_cases h1 : headerSize + headerPayloadSize h ≤ chunk.length
          · rw [if_pos h1]
            unfold subsliceFrom
            simp only
            rw [if_pos (by omega)]
            simp
          · rw [if_neg h1]
            exact Nat.le_refl _
    · exact Nat.le_refl _
    · trivial

/-- A record reader over a store returns its frames. -/
theorem protoFile_yields {m : InStream} (f : ProtoFile m) (hg : f.Good) (fuel : Nat)
    (hf : (recordioFile f.frames).length + 2 ≤ fuel) :
    (recMachine m recordioDecode fuel).Yields f.opened.reader (f.frames.map fun x => ⟨x.kind, x.payload⟩) (.ok none) := by
  obtain ⟨frames, opened⟩ := f
  obtain ⟨hv, hg⟩ := hg
  intro n
  cases opened with
  | memory x =>
    simp only at hg
    subst hg
    exact (recMachine_memory_outs m _ fuel _ n).trans
      ((memReadN_eq_wholeN recordio_laws.empty recordio_noub n _).trans (whole_frames frames n hv))
  | stream s =>
    refine (recMachine_stream_outs m _ fuel _ n).trans ?_
    have hout : ∀ x ∈ ((frames.map (fun f : Frame => (⟨f.kind, f.payload⟩ : Record))).map (fun x => Res.ok (some x)) ++
        List.replicate n (Res.ok none)).take n, ∃ y, x = .ok y := by
      intro x hx
      rcases List.mem_append.1 (List.mem_of_mem_take hx) with h | h
      · obtain ⟨y, _, rfl⟩ := List.mem_map.1 h; exact ⟨_, rfl⟩
      · exact ⟨_, (List.mem_replicate.1 h).2⟩
    refine greader_readN_to recordio_tame chunkSize fuel n s (recordioFile frames)
      (max (2 ^ 31) (2 * (recordioFile frames).length)) (by omega) (Nat.le_trans (by decide) (Nat.le_max_left _ _))
      (Nat.le_trans (by decide) (Nat.le_max_left _ _)) (Nat.le_max_right _ _) hg hf _ (fun sched => ?_) ?_ ?_
    · rw [C03_recordio_chunk_independent _ _ (by decide)]
      exact whole_frames frames n hv
    · intro h; obtain ⟨y, e⟩ := hout _ h; cases e
    · intro w h; obtain ⟨y, e⟩ := hout _ h; cases e

theorem number_bits (is : List (Nat × Option Bytes)) : ∀ seen,
    (number seen is).map (fun i => i.bits.getD []) = is.map fun i => i.2.getD [] := by
  induction is with
  | nil => intro _; rfl
  | cons i is ih =>
    obtain ⟨k, p⟩ := i
    intro seen
    cases p <;> simp [number, ih]

theorem protoCore_renews {m : InStream} (files : List (ProtoFile m)) (hg : ∀ f ∈ files, f.Good)
    (is : List (Nat × Option Bytes)) (ha : Instances files is) :
    ∃ fuel0, ∀ fuel, fuel0 ≤ fuel →
      (protoCore m fuel (files.map fun f => f.opened)).Renews (number [] is) := by
  refine ⟨(files.map fun f => (recordioFile f.frames).length).sum + 2 +
    (items 0 (files.map fun f => .records (f.frames.map fun x => ⟨x.kind, x.payload⟩) none)).1.length + 1, fun fuel hf => ?_⟩
  have hstop : ∀ k, (items k (files.map fun f =>
      Content.records (f.frames.map fun x => ⟨x.kind, x.payload⟩) none)).2 = .eof := by
    clear hf ha hg
    induction files with
    | nil => intro k; rfl
    | cons q qs ih => intro k; simpa [items] using ih (k + 1)
  have hfit : FitsAll (recMachine m recordioDecode fuel)
      ((files.map fun f => f.opened).map fun x => .ok (some x.reader))
      (files.map fun f => .records (f.frames.map fun x => ⟨x.kind, x.payload⟩) none) := by
    refine ⟨Or.inl (by simp), ?_⟩
    intro i o c h1 h2
    simp only [List.getElem?_map, Option.map_map, Option.map_eq_some_iff] at h1 h2
    obtain ⟨q, hq, rfl⟩ := h1
    obtain ⟨q', hq', rfl⟩ := h2
    rw [hq] at hq'
    cases hq'
    have hm := List.mem_of_getElem? hq
    refine protoFile_yields q (hg q hm) fuel ?_
    have : (recordioFile q.frames).length ≤ (files.map fun f => (recordioFile f.frames).length).sum :=
      length_le_sum _ _ (List.mem_map.2 ⟨q, hm, rfl⟩)
    omega
  have hy := C04_split_records_partial (recMachine m recordioDecode fuel) _ _ hfit fuel (by omega) is .eof
    (by rw [hstop]; exact ha) (by simp)
  exact ⟨hy, fun s => hy⟩

/-- Decoding a batch of messages. -/
theorem protoDecodes_batch {parse : Bytes → Option (PRecord V)} {zero : V} {h : BadHandling} {s : Schema}
    (hs : SchemaOk s) {dec : Batch Inst → Except Err (Option (ProtoExample V))} (hd : ProtoDecodes parse zero h s dec)
    (q : Batch Inst) (hb : BatchOk s q.size (q.instances.map fun i => parse (i.bits.getD [])))
    (hp : h = .pad ∨ h = .padWarn → ∀ i ∈ q.instances, IsBad s (parse (i.bits.getD [])) → NoSparse s (parse (i.bits.getD []))) :
    if goodMessages s (q.map fun i => parse (i.bits.getD [])) || h == .pad || h == .padWarn then
      ∃ ex, dec q = .ok (some ex) ∧ HoldsMessages zero s (q.map fun i => parse (i.bits.getD [])) ex
    else if h = .error then dec q = .error .invalidInstance else dec q = .ok none := by
  obtain ⟨o, h1, h2⟩ := hd q
  have hmap : (q.map fun i => parse (i.bits.getD [])).instances = q.instances.map fun i => parse (i.bits.getD []) := rfl
  split
  · next hc =>
    simp only [Bool.or_eq_true, goodMessages, decide_eq_true_eq, hmap, beq_iff_eq] at hc
    obtain ⟨ts, rfl, e1, e2⟩ := C40_batch_partial zero h s hs q.size _ hb (by
      intro r hr hbad
      rcases hc with (hc | hc) | hc
      · exact absurd hbad (hc r hr)
      · refine ⟨Or.inl hc, ?_⟩
        obtain ⟨i, hi, rfl⟩ := List.mem_map.1 hr
        exact hp (Or.inl hc) i hi hbad
      · refine ⟨Or.inr hc, ?_⟩
        obtain ⟨i, hi, rfl⟩ := List.mem_map.1 hr
        exact hp (Or.inr hc) i hi hbad) o h1
    exact ⟨_, by rw [h2]; rfl, rfl, e1, e2⟩
  · next hc =>
    simp only [Bool.or_eq_true, goodMessages, decide_eq_true_eq, hmap, beq_iff_eq, not_or] at hc
    have hbad : ∃ r ∈ q.instances.map (fun i => parse (i.bits.getD [])), IsBad s r := by
      refine Classical.byContradiction fun hn => hc.1.1 fun r hr hb' => hn ⟨r, hr, hb'⟩
    obtain ⟨e1, e2⟩ := C40_bad zero h s hs q.size _ hb hbad o h1
    cases h with
    | error => rw [h2, e1 rfl]; rfl
    | skip => rw [h2, e2 (Or.inl rfl)]; rfl
    | skipWarn => rw [h2, e2 (Or.inr rfl)]; rfl
    | pad => exact absurd rfl hc.1.2
    | padWarn => exact absurd rfl hc.2

theorem batches_size {α : Type} (b : Nat) (hb : 0 < b) (l : LastHandling) (xs : List α) :
    ∀ q ∈ batches b l xs, q.size ≤ b := by
  intro q hq
  have hf := batches_fit b hb l xs q hq
  unfold batches batchesFrom at hq
  obtain ⟨p, hp, rfl⟩ := List.mem_map.1 hq
  simp only at hf ⊢
  split
  · exact Nat.le_refl _
  · exact hf.2

end Mlio
