import Verif.Model.Parquet
import Verif.Spec.Parquet
import Verif.Proofs.RecordIO

namespace Mlio

open Spec

theorem loadU32_ok (b : Bytes) (k : Nat) (h : k + 4 ≤ b.length) :
    ∃ w, loadU32 b k = .ok w ∧ w < 2 ^ 32 ∧ (b.drop k).take 4 = u32le w := by
  have e : ∀ i, i < b.length → b.drop i = b.getD i 0 :: b.drop (i + 1) := by
    intro i hi
    rw [List.drop_eq_getElem_cons hi]
    simp [List.getD_eq_getElem?_getD, hi]
  refine ⟨le32 (b.getD k 0) (b.getD (k + 1) 0) (b.getD (k + 2) 0) (b.getD (k + 3) 0), ?_, ?_, ?_⟩
  · unfold loadU32
    rw [if_pos ⟨by omega, by omega⟩]
    rfl
  · have h0 := (b.getD k 0).toNat_lt; have h1 := (b.getD (k + 1) 0).toNat_lt
    have h2 := (b.getD (k + 2) 0).toNat_lt; have h3 := (b.getD (k + 3) 0).toNat_lt
    simp only [le32]; omega
  · rw [e k (by omega), e (k + 1) (by omega), e (k + 2) (by omega), e (k + 3) (by omega)]
    simp only [List.take_succ_cons, List.take_zero]
    generalize b.getD k 0 = x0; generalize b.getD (k + 1) 0 = x1
    generalize b.getD (k + 2) 0 = x2; generalize b.getD (k + 3) 0 = x3
    have := x0.toNat_lt; have := x1.toNat_lt
    have := x2.toNat_lt; have := x3.toNat_lt
    have e0 : le32 x0 x1 x2 x3 % 256 = x0.toNat := by simp only [le32]; omega
    have e1 : le32 x0 x1 x2 x3 / 256 % 256 = x1.toNat := by simp only [le32]; omega
    have e2 : le32 x0 x1 x2 x3 / 65536 % 256 = x2.toNat := by simp only [le32]; omega
    have e3 : le32 x0 x1 x2 x3 / 16777216 % 256 = x3.toNat := by simp only [le32]; omega
    simp only [u32le, e0, e1, e2, e3, UInt8.ofNat_toNat]

theorem u32le_inj (a b : Nat) (ha : a < 2 ^ 32) (hb : b < 2 ^ 32) (h : u32le a = u32le b) : a = b := by
  have h1 := le32_u32le a ha
  have h2 := le32_u32le b hb
  simp only [u32le, List.cons.injEq, and_true] at h
  rw [← h1, ← h2, h.1, h.2.1, h.2.2.1, h.2.2.2]

theorem par1_eq : par1 = u32le 0x31524150 := by decide

theorem isMagic_ok (b : Bytes) (k : Nat) (h : k + 4 ≤ b.length) :
    ∃ m, parquetIsMagic b k = .ok m ∧ (m = true ↔ (b.drop k).take 4 = par1) := by
  obtain ⟨w, h1, h2, h3⟩ := loadU32_ok b k h
  refine ⟨w == 0x31524150, by simp [parquetIsMagic, h1, bind, Res.bind], ?_⟩
  rw [h3, par1_eq]
  constructor
  · intro h; simp at h; rw [h]
  · intro h; have := u32le_inj _ _ h2 (by decide) h; simp [this]

theorem loadU8_ok (b : Bytes) (k : Nat) (h : k < b.length) :
    loadU8 b k = .ok (b[k]).toNat := by
  unfold loadU8
  rw [if_pos ⟨by omega, by omega⟩]
  simp [List.getD_eq_getElem?_getD, h]

/-- The footer test, in terms of the bytes before the position. -/
theorem isFooter_ok (b : Bytes) (pos : Nat) (h8 : 8 ≤ pos) (h : pos + 4 ≤ b.length) :
    ∃ f, parquetIsFooter b pos = .ok f ∧
      (f = true ↔ ∃ size, 9 ≤ size ∧ 4 + size + 4 ≤ pos ∧ size < 2 ^ 32 ∧
        (b.drop (pos - 4)).take 4 = u32le size ∧
        b[pos - 5]? = some 0 ∧ ∃ hd ∈ thriftHeaders, b[pos - 4 - size]? = some hd) := by
  obtain ⟨w, h1, h2, h3⟩ := loadU32_ok b (pos - 4) (by omega)
  have e : ((pos : Int) - 4) = ((pos - 4 : Nat) : Int) := by omega
  simp only [parquetIsFooter, e, h1, bind, Res.bind]
  have key : ∀ P : Nat → Prop, (∃ size, 9 ≤ size ∧ 4 + size + 4 ≤ pos ∧ size < 2 ^ 32 ∧
        (b.drop (pos - 4)).take 4 = u32le size ∧ P size) ↔ (9 ≤ w ∧ 4 + w + 4 ≤ pos ∧ P w) := by
    intro P
    constructor
    · rintro ⟨size, a1, a2, a3, a4, a5⟩
      rw [h3] at a4
      have := u32le_inj _ _ h2 a3 a4
      subst this
      exact ⟨a1, a2, a5⟩
    · rintro ⟨a1, a2, a5⟩
      exact ⟨w, a1, a2, h2, h3, a5⟩
  rw [key fun size => b[pos - 5]? = some 0 ∧ ∃ hd ∈ thriftHeaders, b[pos - 4 - size]? = some hd]
  by_cases c1 : w < 9
  · refine ⟨false, by simp [c1], by simp; omega⟩
  · rw [if_neg c1]
    by_cases c2 : 4 + (w : Int) > ((pos - 4 : Nat) : Int)
    · refine ⟨false, by simp [c2], by simp; omega⟩
    · rw [if_neg c2]
      have e2 : (((pos - 4 : Nat) : Int) - 1) = ((pos - 5 : Nat) : Int) := by omega
      have e3 : (((pos - 4 : Nat) : Int) - w) = ((pos - 4 - w : Nat) : Int) := by omega
      have l2 : pos - 5 < b.length := by omega
      have l3 : pos - 4 - w < b.length := by omega
      rw [e2, loadU8_ok b _ l2]
      simp only [parquetIsMetadataBegin, e3, loadU8_ok b _ l3, bind, Res.bind]
      rw [List.getElem?_eq_getElem l2, List.getElem?_eq_getElem l3]
      have z : ∀ x : UInt8, x.toNat = 0 ↔ x = 0 := by
        intro x
        constructor
        · intro h; exact UInt8.toNat_inj.1 (by simpa using h)
        · rintro rfl; rfl
      by_cases c3 : (b[pos - 5]).toNat = 0
      · rw [if_neg (by simpa using c3)]
        refine ⟨_, rfl, ?_⟩
        rw [z] at c3
        simp only [c3, Option.some.injEq, true_and]
        generalize b[pos - 4 - w] = x
        have hx : ∀ (n : Nat) (y : UInt8), y.toNat = n → ((x.toNat == n) = true ↔ x = y) := by
          intro n y hy
          rw [beq_iff_eq, ← hy]
          exact UInt8.toNat_inj
        simp only [Bool.or_eq_true, hx 0x15 0x15 rfl, hx 0x29 0x29 rfl, hx 0x36 0x36 rfl,
          hx 0x49 0x49 rfl, hx 0x59 0x59 rfl, hx 0x68 0x68 rfl, hx 0x79 0x79 rfl]
        constructor
        · intro hh
          refine ⟨by omega, by omega, x, ?_, rfl⟩
          simp only [thriftHeaders, List.mem_cons, List.not_mem_nil, or_false]
          rcases hh with (((((h | h) | h) | h) | h) | h) | h <;> simp [h]
        · rintro ⟨_, _, y, hy, rfl⟩
          simp only [thriftHeaders, List.mem_cons, List.not_mem_nil, or_false] at hy
          rcases hy with h | h | h | h | h | h | h <;> simp [h]
      · rw [if_pos (by simpa using c3)]
        refine ⟨false, rfl, ?_⟩
        rw [z] at c3
        simp [c3]

/-- Both tests together are the specification. -/
theorem looks_iff (b : Bytes) (pos : Nat) (h8 : 8 ≤ pos) (h : pos + 4 ≤ b.length)
    (hm : b.take 4 = par1) :
    LooksParquet (b.take (pos + 4)) ↔ (b.drop pos).take 4 = par1 ∧
      ∃ size, 9 ≤ size ∧ 4 + size + 4 ≤ pos ∧ size < 2 ^ 32 ∧
        (b.drop (pos - 4)).take 4 = u32le size ∧
        b[pos - 5]? = some 0 ∧ ∃ hd ∈ thriftHeaders, b[pos - 4 - size]? = some hd := by
  constructor
  · rintro ⟨body, mdata, hx, h9, hlt, ⟨hd, hhd, hhead⟩, hlast⟩
    have hlen : (b.take (pos + 4)).length = pos + 4 := by simp; omega
    have hl2 : pos + 4 = 4 + body.length + mdata.length + 4 + 4 := by
      rw [← hlen, hx]; simp [par1, u32le]; omega
    have hb : b = par1 ++ body ++ mdata ++ u32le mdata.length ++ par1 ++ b.drop (pos + 4) := by
      rw [← hx, List.take_append_drop]
    generalize b.drop (pos + 4) = rest at hb
    have hp4 : (par1).length = 4 := rfl
    have hu4 : (u32le mdata.length).length = 4 := rfl
    refine ⟨?_, mdata.length, h9, by omega, hlt, ?_, ?_, hd, hhd, ?_⟩
    · have e : pos = (par1 ++ body ++ mdata ++ u32le mdata.length).length := by
        simp only [List.length_append, hp4, hu4]; omega
      rw [hb, List.append_assoc _ par1]
      conv => lhs; rw [e]
      rw [List.drop_left]; rfl
    · have e : pos - 4 = (par1 ++ body ++ mdata).length := by
        simp only [List.length_append, hp4]; omega
      rw [hb, List.append_assoc _ par1, List.append_assoc _ (u32le _)]
      conv => lhs; rw [e]
      rw [List.drop_left]; rfl
    · have e : pos - 5 = (par1 ++ body).length + (mdata.length - 1) := by
        simp only [List.length_append, hp4]; omega
      rw [hb, e, List.append_assoc, List.append_assoc, List.append_assoc,
        List.getElem?_append_right (by omega), Nat.add_sub_cancel_left,
        List.getElem?_append_left (by omega), ← List.getLast?_eq_getElem?, hlast]
    · have e : pos - 4 - mdata.length = (par1 ++ body).length + 0 := by
        simp only [List.length_append, hp4]; omega
      rw [hb, e, List.append_assoc, List.append_assoc, List.append_assoc,
        List.getElem?_append_right (by omega), Nat.add_sub_cancel_left,
        List.getElem?_append_left (by omega), ← List.head?_eq_getElem?, hhead]
  · rintro ⟨hmag, size, h9, hfit, hlt, hsz, hlast, hd, hhd, hhead⟩
    have hmeta : ((b.drop (pos - 4 - size)).take size).length = size := by simp; omega
    refine ⟨(b.drop 4).take (pos - 8 - size), (b.drop (pos - 4 - size)).take size, ?_, ?_, ?_, ?_, ?_⟩
    · rw [hmeta, ← hsz]
      have hcat : ∀ i j k : Nat, (b.drop i).take j ++ (b.drop (i + j)).take k = (b.drop i).take (j + k) := by
        intro i j k
        rw [List.take_add, List.drop_drop]
      have h0 : par1 = (b.drop 0).take 4 := by rw [← hm]; simp
      have e3 : par1 = (b.drop (0 + (4 + (pos - 8 - size) + size + 4))).take 4 := by
        rw [← hmag]; congr 2; omega
      conv => rhs; arg 2; rw [e3]
      conv => rhs; arg 1; arg 1; arg 1; arg 1; rw [h0]
      have e0 : b.drop 4 = b.drop (0 + 4) := rfl
      rw [e0, hcat 0 4]
      have e1 : (b.drop (pos - 4 - size)).take size = (b.drop (0 + (4 + (pos - 8 - size)))).take size := by
        congr 2; omega
      rw [e1, hcat]
      have e2 : (b.drop (pos - 4)).take 4 = (b.drop (0 + (4 + (pos - 8 - size) + size))).take 4 := by
        congr 2; omega
      rw [e2, hcat]
      rw [hcat]
      simp only [List.drop_zero]
      congr 1; omega
    · rw [hmeta]; exact h9
    · rw [hmeta]; exact hlt
    · refine ⟨hd, hhd, ?_⟩
      rw [List.head?_eq_getElem?, List.getElem?_take_of_lt (by omega), List.getElem?_drop]
      exact hhead
    · rw [List.getLast?_eq_getElem?, hmeta, List.getElem?_take_of_lt (by omega), List.getElem?_drop]
      rw [← hlast]; congr 1; omega

/-- The scan finds the first prefix that looks like Parquet. -/
theorem parquetScan_spec (b : Bytes) (hm : b.take 4 = par1) (fuel pos : Nat) (h8 : 8 ≤ pos)
    (hf : b.length ≤ fuel + pos + 3) :
    (∃ p, parquetScan b fuel pos = .ok (some p) ∧ pos ≤ p ∧ p + 4 ≤ b.length ∧
      LooksParquet (b.take (p + 4)) ∧ ∀ q, pos ≤ q → q < p → ¬ LooksParquet (b.take (q + 4))) ∨
    (parquetScan b fuel pos = .ok none ∧
      ∀ q, pos ≤ q → q + 4 ≤ b.length → ¬ LooksParquet (b.take (q + 4))) := by
  induction fuel generalizing pos with
  | zero =>
    right
    rw [parquetScan, if_neg (by omega)]
    exact ⟨rfl, fun q h1 h2 => by omega⟩
  | succ fuel ih =>
    by_cases hp : (pos : Int) ≤ (b.length : Int) - 4
    · rw [parquetScan, if_pos hp]
      obtain ⟨m, hm1, hm2⟩ := isMagic_ok b pos (by omega)
      obtain ⟨f, hf1, hf2⟩ := isFooter_ok b pos h8 (by omega)
      have hlooks := looks_iff b pos h8 (by omega) hm
      rw [← hf2, ← hm2] at hlooks
      have hnext := ih (pos + 1) (by omega) (by omega)
      have step : (¬ LooksParquet (b.take (pos + 4))) →
          (∃ p, parquetScan b fuel (pos + 1) = .ok (some p) ∧ pos ≤ p ∧ p + 4 ≤ b.length ∧
            LooksParquet (b.take (p + 4)) ∧ ∀ q, pos ≤ q → q < p → ¬ LooksParquet (b.take (q + 4))) ∨
          (parquetScan b fuel (pos + 1) = .ok none ∧
            ∀ q, pos ≤ q → q + 4 ≤ b.length → ¬ LooksParquet (b.take (q + 4))) := by
        intro hno
        have ext : ∀ q, pos ≤ q → q = pos ∨ pos + 1 ≤ q := by intro q h; omega
        rcases hnext with ⟨p, a1, a2, a3, a4, a5⟩ | ⟨a1, a2⟩
        · left
          refine ⟨p, a1, by omega, a3, a4, ?_⟩
          intro q hq hq'
          rcases ext q hq with rfl | h
          · exact hno
          · exact a5 q h hq'
        · right
          refine ⟨a1, ?_⟩
          intro q hq hq'
          rcases ext q hq with rfl | h
          · exact hno
          · exact a2 q h hq'
      simp only [hm1, hf1, bind, Res.bind]
      cases m with
      | false =>
        simp only [Bool.false_eq_true, if_false]
        exact step (by rw [hlooks]; simp)
      | true =>
        cases f with
        | false =>
          simp only [Bool.false_eq_true, if_false, if_true]
          exact step (by rw [hlooks]; simp)
        | true =>
          left
          refine ⟨pos, by simp, Nat.le_refl _, by omega, hlooks.2 ⟨rfl, rfl⟩, ?_⟩
          intro q h1 h2; omega
    · right
      rw [parquetScan, if_neg hp]
      exact ⟨rfl, fun q h1 h2 => by omega⟩

theorem looks_length {x : Bytes} (h : LooksParquet x) : 21 ≤ x.length := by
  obtain ⟨body, mdata, rfl, h9, _⟩ := h
  simp [par1, u32le]; omega

theorem looks_head {x : Bytes} (h : LooksParquet x) : x.take 4 = par1 := by
  obtain ⟨body, mdata, rfl, _⟩ := h
  simp [par1]

/-- The exact behaviour of the decoder. -/
theorem parquetDecode_spec (b : Bytes) (ig : Bool) :
    (b = [] ∧ parquetDecode b ig = .more b 0) ∨
    (∃ x rest, b = x ++ rest ∧ MinimalParquet x ∧ parquetDecode b ig = .got ⟨0, x⟩ rest) ∨
    (b ≠ [] ∧ (∀ x, x <+: b → ¬ LooksParquet x) ∧
      ((4 ≤ b.length ∧ b.take 4 ≠ par1 ∧ parquetDecode b ig = .fail .corruptHeader b) ∨
       ((b.length < 4 ∨ b.take 4 = par1) ∧
         parquetDecode b ig = if ig then .more b 0
           else .fail (if b.length < 4 then .corruptHeader else .corruptFooter) b))) := by
  by_cases hne : b = []
  · left; subst hne; exact ⟨rfl, by simp [parquetDecode]⟩
  · right
    have hemp : b.isEmpty = false := by cases b <;> simp_all
    by_cases h4 : b.length < 4
    · right
      refine ⟨hne, ?_, Or.inr ⟨Or.inl h4, ?_⟩⟩
      · intro x hx hl
        have := looks_length hl
        have := hx.length_le
        omega
      · simp [parquetDecode, hemp, h4]
    · obtain ⟨m, hm1, hm2⟩ := isMagic_ok b 0 (by omega)
      rw [List.drop_zero] at hm2
      have hm1' : parquetIsMagic b 0 = .ok m := hm1
      cases m with
      | false =>
        right
        have hn : b.take 4 ≠ par1 := fun h => by simpa using hm2.2 h
        refine ⟨hne, ?_, Or.inl ⟨by omega, hn, ?_⟩⟩
        · rintro x ⟨t, rfl⟩ hl
          apply hn
          rw [List.take_append_of_le_length (by have := looks_length hl; omega)]
          exact looks_head hl
        · simp [parquetDecode, hemp, h4, hm1']
      | true =>
        have hm := hm2.1 rfl
        by_cases h12 : b.length < 2 * 4 + 4
        · right
          refine ⟨hne, ?_, Or.inr ⟨Or.inr hm, ?_⟩⟩
          · intro x hx hl
            have := looks_length hl
            have := hx.length_le
            omega
          · simp only [parquetDecode, hemp, h4, hm1', h12, if_true, if_false, Bool.false_eq_true]
        · rcases parquetScan_spec b hm b.length 8 (by omega) (by omega) with
            ⟨p, a1, a2, a3, a4, a5⟩ | ⟨a1, a2⟩
          · left
            refine ⟨b.take (p + 4), b.drop (p + 4), by simp, ⟨a4, ?_⟩, ?_⟩
            · intro y hy hly
              have hyl := looks_length hly
              have hy' : y = b.take y.length := by
                have := (hy.trans (List.take_prefix _ _))
                exact List.prefix_iff_eq_take.1 this
              have hle := hy.length_le
              have hpl : (b.take (p + 4)).length = p + 4 := by simp; omega
              by_cases heq : y.length = p + 4
              · rw [hy', heq]
              · exfalso
                apply a5 (y.length - 4) (by omega) (by omega)
                rw [show y.length - 4 + 4 = y.length by omega, ← hy']
                exact hly
            · have hs1 : sliceFirst b (p + 4) = .ok (b.take (p + 4)) := by
                rw [sliceFirst, if_pos a3]
              have hs2 : subsliceFrom b (p + 4) = .ok (b.drop (p + 4)) := by
                rw [subsliceFrom, if_pos a3]
              simp only [parquetDecode, hemp, h4, hm1', h12, if_false, Bool.false_eq_true, a1, hs1, hs2]
          · right
            refine ⟨hne, ?_, Or.inr ⟨Or.inr hm, ?_⟩⟩
            · intro x hx hl
              have hxl := looks_length hl
              have hle := hx.length_le
              apply a2 (x.length - 4) (by omega) (by omega)
              rw [show x.length - 4 + 4 = x.length by omega, ← List.prefix_iff_eq_take.1 hx]
              exact hl
            · simp only [parquetDecode, hemp, h4, hm1', h12, if_false, Bool.false_eq_true, a1]

theorem minimal_unique {x y b : Bytes} (hx : MinimalParquet x) (hy : MinimalParquet y)
    (h1 : x <+: b) (h2 : y <+: b) : x = y := by
  rcases List.prefix_or_prefix_of_prefix h1 h2 with h | h
  · exact hy.2 x h hx.1
  · exact (hx.2 y h hy.1).symm

theorem parquetDecode_got (x rest : Bytes) (h : MinimalParquet x) (ig : Bool) :
    parquetDecode (x ++ rest) ig = .got ⟨0, x⟩ rest := by
  have hl := looks_length h.1
  rcases parquetDecode_spec (x ++ rest) ig with ⟨h1, _⟩ | ⟨y, r, h1, h2, h3⟩ | ⟨_, h1, _⟩
  · simp at h1; rw [h1.1] at hl; simp at hl
  · have : x = y := minimal_unique h h2 (List.prefix_append _ _) ⟨r, h1.symm⟩
    subst this
    rw [List.append_cancel_left h1]
    rw [h1] at h3
    exact h3
  · exact absurd h.1 (h1 x (List.prefix_append _ _))

theorem parquet_noub (s : Bytes) (ig : Bool) (w : String) : parquetDecode s ig ≠ .ub w := by
  rcases parquetDecode_spec s ig with ⟨_, h⟩ | ⟨_, _, _, _, h⟩ | ⟨_, _, ⟨_, _, h⟩ | ⟨_, h⟩⟩ <;> rw [h]
  · simp
  · simp
  · simp
  · cases ig <;> simp

theorem parquet_got_inv {s : Bytes} {ig : Bool} {r : Record} {rest : Bytes}
    (hd : parquetDecode s ig = .got r rest) :
    ∃ x, s = x ++ rest ∧ MinimalParquet x ∧ r = ⟨0, x⟩ := by
  rcases parquetDecode_spec s ig with ⟨_, h⟩ | ⟨x, y, h1, h2, h⟩ | ⟨_, _, ⟨_, _, h⟩ | ⟨_, h⟩⟩
  · rw [h] at hd; simp at hd
  · rw [h] at hd
    injection hd with e1 e2
    subst e2
    exact ⟨x, h1, h2, e1.symm⟩
  · rw [h] at hd; simp at hd
  · rw [h] at hd; cases ig <;> simp at hd

theorem parquet_fail_inv {s : Bytes} {ig : Bool} {e : Err} {rest : Bytes}
    (hd : parquetDecode s ig = .fail e rest) : rest = s ∧
      (ig = true → e = .corruptHeader ∧ 4 ≤ s.length ∧ s.take 4 ≠ par1) := by
  rcases parquetDecode_spec s ig with ⟨_, h⟩ | ⟨x, y, h1, h2, h⟩ | ⟨_, _, ⟨h1, h2, h⟩ | ⟨_, h⟩⟩
  · rw [h] at hd; simp at hd
  · rw [h] at hd; simp at hd
  · rw [h] at hd; injection hd with e1 e2; exact ⟨e2.symm, fun _ => ⟨e1.symm, h1, h2⟩⟩
  · rw [h] at hd
    cases ig
    · simp at hd; exact ⟨hd.2.symm, by simp⟩
    · simp at hd

theorem parquet_more_inv {s : Bytes} {ig : Bool} {k : Nat} {rest : Bytes}
    (hd : parquetDecode s ig = .more rest k) : rest = s := by
  rcases parquetDecode_spec s ig with ⟨_, h⟩ | ⟨x, y, h1, h2, h⟩ | ⟨_, _, ⟨h1, h2, h⟩ | ⟨_, h⟩⟩
  · rw [h] at hd; injection hd with e1 e2; exact e1.symm
  · rw [h] at hd; simp at hd
  · rw [h] at hd; simp at hd
  · rw [h] at hd; cases ig <;> simp at hd; exact hd.1.symm

theorem parquet_laws : Laws parquetDecode (fun _ => True) where
  empty := fun ig => ⟨0, by simp [parquetDecode]⟩
  got := by
    intro s t r rest _ h
    obtain ⟨x, rfl, hx, rfl⟩ := parquet_got_inv h
    have := parquetDecode_got x (rest ++ t) hx false
    simp [wholeStep, this]
  fail := by
    intro s t e rest _ h
    obtain ⟨rfl, h2⟩ := parquet_fail_inv h
    obtain ⟨rfl, h4, hn⟩ := h2 rfl
    have : parquetDecode (rest ++ t) false = .fail .corruptHeader (rest ++ t) := by
      have hn' : (rest ++ t).take 4 ≠ par1 := by
        rwa [List.take_append_of_le_length h4]
      rcases parquetDecode_spec (rest ++ t) false with ⟨h, _⟩ | ⟨x, y, h1, h2, h⟩ | ⟨_, _, ⟨h1, h2, h⟩ | ⟨h1, h⟩⟩
      · simp at h; rw [h.1] at h4; simp at h4
      · exfalso
        apply hn'
        rw [h1, List.take_append_of_le_length (by have := looks_length h2.1; omega)]
        exact looks_head h2.1
      · exact h
      · rcases h1 with h1 | h1
        · simp at h1; omega
        · exact absurd h1 hn'
    simp [wholeStep, this]
  more := by
    intro s t rest k _ h
    have := parquet_more_inv h
    subst this
    simp
  noub := parquet_noub
  shrink_got := fun s ig r rest h => by
    obtain ⟨x, rfl, _, _⟩ := parquet_got_inv h
    simp
  shrink_fail := fun s ig e rest h => by rw [(parquet_fail_inv h).1]; omega
  shrink_more := fun s ig h rest hh => by rw [parquet_more_inv hh]; omega
  good_got := fun _ _ _ _ _ => trivial
  good_fail := fun _ _ _ _ _ => trivial
  good_nil := trivial

theorem wholeN_parquet (xs : List Bytes) (h : ∀ x ∈ xs, MinimalParquet x) (k : Nat) :
    wholeN parquetDecode (xs.length + k) xs.flatten =
      xs.map (fun x => .ok (some ⟨0, x⟩)) ++ List.replicate k (.ok none) := by
  induction xs with
  | nil => simpa using wholeN_nil (k := 0) k (by simp [parquetDecode])
  | cons x xs ih =>
    simp only [List.length_cons, List.flatten_cons, List.map_cons, List.cons_append]
    rw [show xs.length + 1 + k = (xs.length + k) + 1 by omega,
      wholeN_got (parquetDecode_got x _ (h x (by simp)) false), ih (fun y hy => h y (by simp [hy]))]

end Mlio
