import Verif.Proofs.StreamReader
import Verif.Spec.RecordIO

namespace Mlio

open Spec

theorem le32_u32le (n : Nat) (h : n < 2 ^ 32) :
    le32 (UInt8.ofNat (n % 256)) (UInt8.ofNat (n / 256 % 256)) (UInt8.ofNat (n / 65536 % 256))
      (UInt8.ofNat (n / 16777216 % 256)) = n := by
  simp [le32, UInt8.toNat_ofNat']
  omega

theorem headerKind_eq (d : Nat) : headerKind d = d / 2 ^ 29 % 8 := by
  have : (7 : Nat) = 2 ^ 3 - 1 := rfl
  rw [headerKind, this, Nat.and_two_pow_sub_one_eq_mod, Nat.shiftRight_eq_div_pow]

theorem headerPayloadSize_eq (d : Nat) : headerPayloadSize d = d % 2 ^ 29 := by
  have : (1 <<< 29) - 1 = 2 ^ 29 - 1 := rfl
  rw [headerPayloadSize, this, Nat.and_two_pow_sub_one_eq_mod]

theorem align4_eq (s : Nat) (h : s < 2 ^ 32) : align4 s = (s + 3) / 4 * 4 := by
  have h1 : (s + 3) / 4 * 4 = ((s + 3) >>> 2) <<< 2 := by
    simp [Nat.shiftRight_eq_div_pow, Nat.shiftLeft_eq]
  have h2 : W64 - 4 = (2 ^ 62 - 1) <<< 2 := by decide
  have h3 : (s + 3) >>> 2 < 2 ^ 62 := by simp [Nat.shiftRight_eq_div_pow]; omega
  rw [h1, align4, h2]
  apply Nat.eq_of_testBit_eq
  intro i
  rw [Nat.testBit_and, Nat.testBit_shiftLeft, Nat.testBit_shiftLeft, Nat.testBit_two_pow_sub_one]
  by_cases hi : i ≥ 2
  · have : s + 4 - 1 = s + 3 := by omega
    rw [this, Nat.testBit_shiftRight]
    have e : 2 + (i - 2) = i := by omega
    simp only [hi, decide_true, Bool.true_and, e]
    by_cases hb : i - 2 < 62
    · simp [hb]
    · simp [hb]
      have hlt : s + 3 < 2 ^ i := by
        calc s + 3 < 2 ^ 64 := by omega
          _ ≤ 2 ^ i := Nat.pow_le_pow_right (by decide) (by omega)
      exact Nat.testBit_lt_two_pow hlt
  · simp [hi]

theorem align4_spec (s : Nat) (h : s < 2 ^ 32) :
    s ≤ align4 s ∧ align4 s < s + 4 ∧ align4 s % 4 = 0 := by
  rw [align4_eq s h]; omega

theorem headerPayloadSize_lt (d : Nat) : headerPayloadSize d < 2 ^ 29 := by
  rw [headerPayloadSize_eq]; omega

theorem decodeHeader_append (s t : Bytes) (d : Nat) (h : decodeHeader s = .ok (some d)) :
    decodeHeader (s ++ t) = .ok (some d) := by
  unfold decodeHeader at h
  split at h
  · simp only [decodeHeader, List.cons_append]
    exact h
  · simp at h

theorem decodeHeader_append_err (s t : Bytes) (e : Err) (h : decodeHeader s = .err e) :
    decodeHeader (s ++ t) = .err e := by
  unfold decodeHeader at h
  split at h
  · simp only [decodeHeader, List.cons_append]
    exact h
  · simp at h

theorem decodeHeader_noub (s : Bytes) (w : String) : decodeHeader s ≠ .ub w := by
  unfold decodeHeader
  split
  · split <;> simp
  · simp

theorem decodeHeader_long (s : Bytes) (d : Nat) (h : decodeHeader s = .ok (some d)) :
    8 ≤ s.length := by
  unfold decodeHeader at h
  split at h
  · simp
  · simp at h

theorem recordioDecode_nil (ig : Bool) : recordioDecode [] ig = .more [] 0 := by
  simp [recordioDecode]

/-- Closed form of the decoder: the slices it takes are always valid. -/
theorem recordioDecode_eq (c : Bytes) (ig : Bool) :
    recordioDecode c ig =
      if c.isEmpty then .more c 0 else
      match decodeHeader c with
      | .err e => .fail e c
      | .ub w => .ub w
      | .ok none => if ig then .more c 0 else .fail .corruptHeader c
      | .ok (some h) =>
        if 8 + align4 (headerPayloadSize h) > c.length then
          if ig then .more c (8 + align4 (headerPayloadSize h)) else .fail .corruptHeader c
        else .got ⟨headerKind h, (c.drop 8).take (headerPayloadSize h)⟩
          (c.drop (8 + align4 (headerPayloadSize h))) := by
  unfold recordioDecode
  split
  · rfl
  · cases hh : decodeHeader c with
    | err e => rfl
    | ub w => rfl
    | ok o =>
      cases o with
      | none => rfl
      | some h =>
        rw [show headerSize = 8 from rfl]
        simp only
        by_cases hlen : 8 + align4 (headerPayloadSize h) > c.length
        · rw [if_pos hlen, if_pos hlen]
        · rw [if_neg hlen, if_neg hlen]
          have := align4_spec (headerPayloadSize h)
            (Nat.lt_trans (headerPayloadSize_lt h) (by decide))
          have h1 : 8 + headerPayloadSize h ≤ c.length := by omega
          have h2 : 8 + align4 (headerPayloadSize h) ≤ c.length := by omega
          simp [subslice, subsliceFrom, h1, h2]

theorem recordio_noub (s : Bytes) (ig : Bool) (w : String) : recordioDecode s ig ≠ .ub w := by
  rw [recordioDecode_eq]
  split
  · simp
  · cases hh : decodeHeader s with
    | err e => simp
    | ub w => exact absurd hh (decodeHeader_noub _ _)
    | ok o =>
      cases o with
      | none => cases ig <;> simp
      | some h => simp only; split <;> (try split) <;> simp

theorem recordio_got_append (s t : Bytes) (ig ig' : Bool) (r : Record) (rest : Bytes)
    (h : recordioDecode s ig = .got r rest) :
    recordioDecode (s ++ t) ig' = .got r (rest ++ t) := by
  rw [recordioDecode_eq] at h
  split at h
  · simp at h
  · rename_i hne
    have hne' : (s ++ t).isEmpty = false := by
      cases s <;> simp_all
    cases hh : decodeHeader s with
    | err e => simp [hh] at h
    | ub w => simp [hh] at h
    | ok o =>
      cases o with
      | none => simp only [hh] at h; split at h <;> simp at h
      | some d =>
        have hal := align4_spec (headerPayloadSize d)
          (Nat.lt_trans (headerPayloadSize_lt d) (by decide))
        simp only [hh] at h
        split at h
        · split at h <;> simp at h
        · rename_i hlen
          rw [recordioDecode_eq, hne', decodeHeader_append s t d hh]
          have : ¬ 8 + align4 (headerPayloadSize d) > (s ++ t).length := by
            simp; omega
          simp only [this, if_false, Bool.false_eq_true]
          injection h with h1 h2
          subst h1 h2
          have e1 : 8 ≤ s.length := by omega
          have e2 : 8 + align4 (headerPayloadSize d) ≤ s.length := by omega
          rw [List.drop_append_of_le_length e1, List.drop_append_of_le_length e2,
            List.take_append_of_le_length (by simp; omega)]

theorem recordio_fail_append (s t : Bytes) (ig' : Bool) (e : Err) (rest : Bytes)
    (h : recordioDecode s true = .fail e rest) :
    recordioDecode (s ++ t) ig' = .fail e (rest ++ t) := by
  rw [recordioDecode_eq] at h
  split at h
  · simp at h
  · rename_i hne
    have hne' : (s ++ t).isEmpty = false := by
      cases s <;> simp_all
    cases hh : decodeHeader s with
    | err e' =>
      simp only [hh] at h
      injection h with h1 h2
      subst h1 h2
      rw [recordioDecode_eq, hne', decodeHeader_append_err s t e' hh]
      simp
    | ub w => simp [hh] at h
    | ok o =>
      cases o with
      | none => simp [hh] at h
      | some d =>
        simp only [hh, if_true] at h
        split at h <;> simp at h

theorem recordio_more_rest (s : Bytes) (ig : Bool) (rest : Bytes) (k : Nat)
    (h : recordioDecode s ig = .more rest k) : rest = s := by
  rw [recordioDecode_eq] at h
  split at h
  · injection h with h1; exact h1.symm
  · cases hh : decodeHeader s with
    | err e => simp [hh] at h
    | ub w => simp [hh] at h
    | ok o =>
      cases o with
      | none =>
        simp only [hh] at h
        split at h
        · injection h with h1; exact h1.symm
        · simp at h
      | some d =>
        simp only [hh] at h
        split at h
        · split at h
          · injection h with h1; exact h1.symm
          · simp at h
        · simp at h

theorem recordio_fail_rest (s : Bytes) (ig : Bool) (rest : Bytes) (e : Err)
    (h : recordioDecode s ig = .fail e rest) : rest = s := by
  rw [recordioDecode_eq] at h
  split at h
  · simp at h
  · cases hh : decodeHeader s with
    | err e' => simp only [hh] at h; injection h with _ h1; exact h1.symm
    | ub w => simp [hh] at h
    | ok o =>
      cases o with
      | none =>
        simp only [hh] at h
        split at h
        · simp at h
        · injection h with _ h1; exact h1.symm
      | some d =>
        simp only [hh] at h
        split at h
        · split at h
          · simp at h
          · injection h with _ h1; exact h1.symm
        · simp at h

theorem recordio_got_len (s : Bytes) (ig : Bool) (rest : Bytes) (r : Record)
    (h : recordioDecode s ig = .got r rest) : rest.length + 8 ≤ s.length := by
  rw [recordioDecode_eq] at h
  split at h
  · simp at h
  · cases hh : decodeHeader s with
    | err e' => simp [hh] at h
    | ub w => simp [hh] at h
    | ok o =>
      cases o with
      | none => simp only [hh] at h; split at h <;> simp at h
      | some d =>
        simp only [hh] at h
        split at h
        · split at h <;> simp at h
        · injection h with _ h1
          subst h1
          simp; omega

theorem recordio_laws : Laws recordioDecode (fun _ => True) where
  empty := fun ig => ⟨0, recordioDecode_nil ig⟩
  got := by
    intro s t r rest _ h
    have := recordio_got_append s t true false r rest h
    simp [wholeStep, this]
  fail := by
    intro s t e rest _ h
    have := recordio_fail_append s t false e rest h
    simp [wholeStep, this]
  more := by
    intro s t rest k _ h
    have := recordio_more_rest _ _ _ _ h
    subst this
    simp
  noub := recordio_noub
  shrink_got := fun s ig r rest h => by have := recordio_got_len s ig rest r h; omega
  shrink_fail := fun s ig e rest h => by rw [recordio_fail_rest s ig rest e h]; omega
  shrink_more := fun s ig h rest hh => by rw [recordio_more_rest s ig rest h hh]; omega
  good_got := fun _ _ _ _ _ => trivial
  good_fail := fun _ _ _ _ _ => trivial
  good_nil := trivial

theorem decodeHeader_frame (d : Nat) (hd : d < 2 ^ 32) (t : Bytes) :
    decodeHeader (u32le recordioMagic ++ (u32le d ++ t)) = .ok (some d) := by
  simp only [u32le, List.cons_append, List.nil_append, decodeHeader]
  rw [le32_u32le _ (by unfold recordioMagic; omega), le32_u32le _ hd]
  simp

theorem u32le_length (n : Nat) : (u32le n).length = 4 := rfl

theorem drop8 (a b : Nat) (t : Bytes) : (u32le a ++ (u32le b ++ t)).drop 8 = t := rfl

theorem recordio_frame (f : Frame) (hv : f.Valid) (t : Bytes) (ig : Bool) :
    recordioDecode (f.bytes ++ t) ig = .got ⟨f.kind, f.payload⟩ t := by
  obtain ⟨hk, hl, hp, hm⟩ := hv
  obtain ⟨kind, payload, padding⟩ := f
  simp only at hk hl hp hm
  have hd : kind * 2 ^ 29 + payload.length < 2 ^ 32 := by omega
  have hb : Frame.bytes ⟨kind, payload, padding⟩ ++ t = u32le recordioMagic ++
      (u32le (kind * 2 ^ 29 + payload.length) ++ (payload ++ (padding ++ t))) := by
    simp only [Frame.bytes, recordioMagic, List.append_assoc]
  generalize hx : u32le recordioMagic ++
      (u32le (kind * 2 ^ 29 + payload.length) ++ (payload ++ (padding ++ t))) = x at hb
  have hdec : decodeHeader x = .ok (some (kind * 2 ^ 29 + payload.length)) := by
    rw [← hx]; exact decodeHeader_frame _ hd _
  have hsz : headerPayloadSize (kind * 2 ^ 29 + payload.length) = payload.length := by
    rw [headerPayloadSize_eq]; omega
  have hki : headerKind (kind * 2 ^ 29 + payload.length) = kind := by
    rw [headerKind_eq]; omega
  have hal : align4 payload.length = payload.length + padding.length := by
    rw [align4_eq _ (Nat.lt_trans hl (by decide))]; omega
  have hlen : x.length = 8 + payload.length + padding.length + t.length := by
    rw [← hx]; simp [u32le_length]; omega
  have hd8 : x.drop 8 = payload ++ (padding ++ t) := by
    rw [← hx]; exact drop8 _ _ _
  have hne : x.isEmpty = false := by
    cases x with
    | nil => simp at hlen; omega
    | cons _ _ => rfl
  rw [hb, recordioDecode_eq, hne, hdec]
  simp only [hsz, hki, hal, Bool.false_eq_true, if_false]
  have : ¬ 8 + (payload.length + padding.length) > x.length := by omega
  simp only [this, if_false]
  rw [← List.drop_drop, hd8, List.take_left, ← List.append_assoc, List.drop_left' (by simp)]

theorem wholeN_recordioFile (fs : List Frame) (hv : ∀ f ∈ fs, f.Valid) (k : Nat) :
    wholeN recordioDecode (fs.length + k) (recordioFile fs) =
      fs.map (fun f => .ok (some ⟨f.kind, f.payload⟩)) ++ List.replicate k (.ok none) := by
  induction fs with
  | nil =>
    simp only [recordioFile, List.flatMap_nil, List.length_nil, Nat.zero_add, List.map_nil,
      List.nil_append]
    induction k with
    | zero => rfl
    | succ k ih => simp [wholeN, wholeStep, recordioDecode_nil, List.replicate_succ, ih]
  | cons f fs ih =>
    have h1 := recordio_frame f (hv f (by simp)) (recordioFile fs) false
    have h2 : recordioFile (f :: fs) = f.bytes ++ recordioFile fs := by simp [recordioFile]
    have h3 : (f :: fs).length + k = (fs.length + k) + 1 := by simp; omega
    rw [h3, h2, wholeN_got h1, ih (fun f hf => hv f (by simp [hf]))]
    rfl

end Mlio
