import Verif.Proofs.RecordIO

/-! # C01, C02, C03: RecordIO -/

namespace Mlio

open Spec

/-- **C01.** Reading a well-formed RecordIO file through any chunk size and any schedule of short
reads returns exactly the records of the file, in order, and then `none` for ever. -/
theorem C01_recordio_roundtrip (fs : List Frame) (hv : ∀ f ∈ fs, f.Valid)
    (size : Nat) (hsize : 0 < size) (sched : List Nat) (k : Nat) :
    (Reader.init size (recordioFile fs) sched).readN recordioDecode (fs.length + k) =
      fs.map (fun f => .ok (some ⟨f.kind, f.payload⟩)) ++ List.replicate k (.ok none) := by
  rw [readN_eq_wholeN recordio_laws _ _ (Reader.init_inv size hsize _ _) trivial]
  simpa [Reader.total, Reader.init] using wholeN_recordioFile fs hv k

/-- **C01**, zero-copy sources. -/
theorem C01_recordio_roundtrip_mem (fs : List Frame) (hv : ∀ f ∈ fs, f.Valid) (k : Nat) :
    MemReader.readN recordioDecode (fs.length + k) ⟨recordioFile fs, []⟩ =
      fs.map (fun f => .ok (some ⟨f.kind, f.payload⟩)) ++ List.replicate k (.ok none) := by
  rw [memReadN_eq_wholeN recordio_laws.empty recordio_noub]
  exact wholeN_recordioFile fs hv k

-- A file with three records of different kinds and paddings meets the hypotheses.
example : ∀ f ∈ [(⟨0, [1, 2, 3], [9]⟩ : Frame), ⟨1, [], []⟩, ⟨3, [4, 5, 6, 7, 8], [0, 0, 0]⟩],
    f.Valid := by
  simp [Frame.Valid]

-- A test, not a proof: two records read through a one-byte chunk.
example : (Reader.init 1 (recordioFile [⟨0, [1, 2, 3], [9]⟩, ⟨2, [7], [0, 0, 0]⟩]) [1, 5]).readN
    recordioDecode 3 = [.ok (some ⟨0, [1, 2, 3]⟩), .ok (some ⟨2, [7]⟩), .ok none] := by decide

/-- **C02.** Decoding arbitrary bytes.
(a) no undefined behaviour;
(b) a record is returned only if the input is a frame – magic word, a word holding kind and length,
the payload, the padding – followed by the remainder, so payload and remainder are sub-ranges;
(c) conversely every input that starts with a whole frame gives that record;
(d) at the end of the stream, input that is not empty and does not start with a whole frame is a
corrupt-header error; and before the end the answer is that error or a request for more. -/
theorem C02_recordio_arbitrary (b : Bytes) (ig : Bool) :
    (∀ w, recordioDecode b ig ≠ .ub w) ∧
    (∀ r rest, recordioDecode b ig = .got r rest ↔
      ∃ f : Frame, f.Valid ∧ b = f.bytes ++ rest ∧ r = ⟨f.kind, f.payload⟩) ∧
    (b ≠ [] → (¬ ∃ f : Frame, f.Valid ∧ f.bytes <+: b) →
      recordioDecode b false = .fail .corruptHeader b ∧
      (recordioDecode b true = .fail .corruptHeader b ∨
        ∃ h, recordioDecode b true = .more b h)) := by
  have hgot : ∀ ig r rest, recordioDecode b ig = .got r rest →
      ∃ f : Frame, f.Valid ∧ b = f.bytes ++ rest ∧ r = ⟨f.kind, f.payload⟩ := by
    intro ig r rest h
    rw [recordioDecode_eq] at h
    split at h
    · simp at h
    · cases hh : decodeHeader b with
      | err e' => simp [hh] at h
      | ub w => simp [hh] at h
      | ok o =>
        cases o with
        | none => simp only [hh] at h; split at h <;> simp at h
        | some d =>
          simp only [hh] at h
          split at h
          · split at h <;> simp at h
          · rename_i hlen
            injection h with h1 h2
            have hal := align4_spec (headerPayloadSize d)
              (Nat.lt_trans (headerPayloadSize_lt d) (by decide))
            have hps := headerPayloadSize_lt d
            unfold decodeHeader at hh
            split at hh
            · rename_i b0 b1 b2 b3 c0 c1 c2 c3 tl _
              split at hh
              · simp at hh
              · rename_i hm
                have hm : le32 b0 b1 b2 b3 = recordioMagic := by simpa using hm
                have hd : le32 c0 c1 c2 c3 = d := by simpa using hh
                simp only [List.length_cons] at hlen
                have ub0 := b0.toNat_lt; have ub1 := b1.toNat_lt
                have ub2 := b2.toNat_lt; have ub3 := b3.toNat_lt
                have uc0 := c0.toNat_lt; have uc1 := c1.toNat_lt
                have uc2 := c2.toNat_lt; have uc3 := c3.toNat_lt
                have hdlt : d < 2 ^ 32 := by rw [← hd]; simp only [le32]; omega
                have hbytes : ∀ (x0 x1 x2 x3 : UInt8), u32le (le32 x0 x1 x2 x3) = [x0, x1, x2, x3] := by
                  intro x0 x1 x2 x3
                  have := x0.toNat_lt; have := x1.toNat_lt
                  have := x2.toNat_lt; have := x3.toNat_lt
                  have e0 : le32 x0 x1 x2 x3 % 256 = x0.toNat := by simp only [le32]; omega
                  have e1 : le32 x0 x1 x2 x3 / 256 % 256 = x1.toNat := by simp only [le32]; omega
                  have e2 : le32 x0 x1 x2 x3 / 65536 % 256 = x2.toNat := by simp only [le32]; omega
                  have e3 : le32 x0 x1 x2 x3 / 16777216 % 256 = x3.toNat := by simp only [le32]; omega
                  simp only [u32le, e0, e1, e2, e3, UInt8.ofNat_toNat]
                refine ⟨⟨headerKind d, tl.take (headerPayloadSize d),
                  (tl.drop (headerPayloadSize d)).take (align4 (headerPayloadSize d) - headerPayloadSize d)⟩,
                  ⟨?_, ?_, ?_, ?_⟩, ?_, ?_⟩
                · simp only [headerKind_eq]; omega
                · simp; omega
                · simp; omega
                · simp; omega
                · have hk : headerKind d * 2 ^ 29 + headerPayloadSize d = d := by
                    rw [headerKind_eq, headerPayloadSize_eq]; omega
                  have hl : (tl.take (headerPayloadSize d)).length = headerPayloadSize d := by
                    simp; omega
                  simp only [Frame.bytes, hl, hk]
                  rw [show (0xced7230a : Nat) = le32 b0 b1 b2 b3 from hm.symm, ← hd, hbytes, hbytes, hd]
                  simp only [List.cons_append, List.nil_append]
                  rw [← h2, List.append_assoc]
                  simp only [Nat.add_comm 8, List.drop_succ_cons]
                  have : align4 (headerPayloadSize d) = headerPayloadSize d +
                      (align4 (headerPayloadSize d) - headerPayloadSize d) := by omega
                  rw [show List.drop (align4 (headerPayloadSize d)) tl =
                    List.drop (align4 (headerPayloadSize d) - headerPayloadSize d)
                      (List.drop (headerPayloadSize d) tl) by rw [List.drop_drop]; congr 1]
                  rw [List.take_append_drop, List.take_append_drop]
                · rw [← h1]; simp
            · simp at hh
  refine ⟨recordio_noub b ig, fun r rest => ⟨hgot ig r rest, ?_⟩, ?_⟩
  · rintro ⟨f, hv, rfl, rfl⟩
    exact recordio_frame f hv rest ig
  · intro hne hno
    have hno' : ∀ ig r rest, recordioDecode b ig ≠ .got r rest := by
      intro ig r rest h
      obtain ⟨f, hv, hb, _⟩ := hgot ig r rest h
      exact hno ⟨f, hv, by rw [hb]; exact List.prefix_append _ _⟩
    have hne' : b.isEmpty = false := by cases b <;> simp_all
    have key : ∀ ig, recordioDecode b ig = .fail .corruptHeader b ∨
        (ig = true ∧ ∃ h, recordioDecode b ig = .more b h) := by
      intro ig
      have h0 := hno' ig
      rw [recordioDecode_eq, hne'] at h0 ⊢
      simp only [Bool.false_eq_true, if_false] at h0 ⊢
      cases hh : decodeHeader b with
      | err e' =>
        left
        unfold decodeHeader at hh
        split at hh
        · split at hh
          · simp at hh; subst hh; rfl
          · simp at hh
        · simp at hh
      | ub w => exact absurd hh (decodeHeader_noub _ _)
      | ok o =>
        cases o with
        | none => cases ig <;> simp
        | some d =>
          simp only [hh] at h0 ⊢
          split
          · cases ig <;> simp
          · rename_i hlen
            exact absurd (if_neg hlen) (h0 _ _)
    constructor
    · rcases key false with h | ⟨h, _⟩
      · exact h
      · simp at h
    · rcases key true with h | ⟨_, h⟩
      · exact Or.inl h
      · exact Or.inr h

-- Non-vacuity of the two hypotheses of the last part: a truncated frame.
example : ([10, 35, 215, 206, 5] : Bytes) ≠ [] ∧
    recordioDecode [10, 35, 215, 206, 5] false = .fail .corruptHeader [10, 35, 215, 206, 5] := by decide

/-- **C03.** The outcomes of any number of reads from a RecordIO stream are those of decoding the whole
contents at once, for every contents, positive initial chunk size and schedule of short reads. -/
theorem C03_recordio_chunk_independent (data : Bytes) (size : Nat) (hsize : 0 < size)
    (sched : List Nat) (n : Nat) :
    (Reader.init size data sched).readN recordioDecode n = wholeN recordioDecode n data := by
  rw [readN_eq_wholeN recordio_laws _ _ (Reader.init_inv size hsize _ _) trivial]
  simp [Reader.total, Reader.init]

/-- **C03**, as independence: two readers of the same contents cannot be told apart. -/
theorem C03_recordio_same (data : Bytes) (size size' : Nat) (hs : 0 < size) (hs' : 0 < size')
    (sched sched' : List Nat) (n : Nat) :
    (Reader.init size data sched).readN recordioDecode n =
      (Reader.init size' data sched').readN recordioDecode n ∧
    MemReader.readN recordioDecode n ⟨data, []⟩ =
      (Reader.init size data sched).readN recordioDecode n := by
  rw [C03_recordio_chunk_independent _ _ hs, C03_recordio_chunk_independent _ _ hs',
    memReadN_eq_wholeN recordio_laws.empty recordio_noub]
  exact ⟨rfl, rfl⟩

/-- **C03**, termination and safety: no read runs out of fuel or reaches undefined behaviour. -/
theorem C03_recordio_total (data : Bytes) (size : Nat) (hsize : 0 < size)
    (sched : List Nat) (n : Nat) (o : Res (Option Record))
    (ho : o ∈ (Reader.init size data sched).readN recordioDecode n) :
    (∃ r, o = .ok r) ∨ o = .err .corruptHeader := by
  rw [C03_recordio_chunk_independent _ _ hsize] at ho
  induction n generalizing data with
  | zero => simp [wholeN] at ho
  | succ n ih =>
    simp only [wholeN, List.mem_cons] at ho
    rcases ho with ho | ho
    · subst ho
      unfold wholeStep
      cases hd : recordioDecode data false with
      | got r rest => exact Or.inl ⟨_, rfl⟩
      | more rest h => exact Or.inl ⟨_, rfl⟩
      | ub w => exact absurd hd (recordio_noub _ _ _)
      | fail e rest =>
        right
        by_cases hemp : data = []
        · subst hemp; simp [recordioDecode_nil] at hd
        · have := (C02_recordio_arbitrary data false).2.2 hemp (by
            rintro ⟨f, hv, t, rfl⟩
            rw [recordio_frame f hv t false] at hd
            simp at hd)
          rw [this.1] at hd
          injection hd with h1 _
          simp [h1]
    · exact ih _ ho

-- A test: a corrupt second header, reading on.
example : (Reader.init 3 [10, 35, 215, 206, 1, 0, 0, 0, 42, 0, 0, 0, 7] [2]).readN recordioDecode 3
    = [.ok (some ⟨0, [42]⟩), .err .corruptHeader, .err .corruptHeader] := by decide

end Mlio
