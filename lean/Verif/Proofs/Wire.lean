import Verif.Spec.Wire

/-! # Lemmas about the wire format -/

namespace Mlio
open Spec

/-! ## Numbers -/

theorem varint_ne {n : Nat} {bs : Bytes} (h : Varint n bs) : bs ≠ [] := by cases h <;> simp

theorem readVarint_of {n : Nat} {bs : Bytes} (h : Varint n bs) : ∀ (k : Nat), bs.length ≤ k → ∀ rest, readVarint k (bs ++ rest) = some (n, rest) := by
  induction h with
  | last b hb =>
    intro k hk rest
    obtain ⟨k, rfl⟩ : ∃ j, k = j + 1 := ⟨k - 1, by simp at hk; omega⟩
    simp [readVarint, hb]
  | more b hb _ ih =>
    intro k hk rest
    obtain ⟨k, rfl⟩ : ∃ j, k = j + 1 := ⟨k - 1, by simp at hk; omega⟩
    have := ih k (by simp at hk; omega) rest
    simp only [List.cons_append, readVarint]
    rw [if_neg (by omega), this]

theorem readVarint_sound : ∀ (k : Nat) (xs : Bytes) (n : Nat) (rest : Bytes), readVarint k xs = some (n, rest) →
    ∃ bs, Varint n bs ∧ bs.length ≤ k ∧ xs = bs ++ rest
  | 0, _, _, _, h => by simp [readVarint] at h
  | _ + 1, [], _, _, h => by simp [readVarint] at h
  | k + 1, b :: xs, n, rest, h => by
    simp only [readVarint] at h
    split at h
    · next hb =>
      cases h
      exact ⟨[b], .last b hb, by simp, rfl⟩
    · next hb =>
      split at h
      · next n' rest' hr =>
        cases h
        obtain ⟨bs, h1, h2, h3⟩ := readVarint_sound k xs n' rest hr
        exact ⟨b :: bs, .more b (by omega) h1, by simp; omega, by rw [h3]; rfl⟩
      · cases h

theorem lowFirst_sum : ∀ (bs : Bytes) (k : Nat), ((bs.zipIdx k).map fun p => p.1.toNat * 256 ^ p.2).sum = 256 ^ k * lowFirst bs
  | [], k => by simp [lowFirst]
  | b :: bs, k => by
    simp only [List.zipIdx_cons, List.map_cons, List.sum_cons, lowFirst]
    rw [lowFirst_sum bs (k + 1), Nat.pow_succ, Nat.mul_add, Nat.mul_comm b.toNat, Nat.mul_assoc]

theorem lowFirst_iff (n : Nat) (bs : Bytes) : LowFirst n bs ↔ lowFirst bs = n := by
  unfold LowFirst
  rw [lowFirst_sum bs 0]
  simp
  exact eq_comm

theorem lowFirst_fixed : ∀ (w n : Nat), n < 256 ^ w → lowFirst (fixed w n) = n
  | 0, n, h => by simp at h; simp [fixed, lowFirst, h]
  | w + 1, n, h => by
    have h2 : n / 256 < 256 ^ w := Nat.div_lt_of_lt_mul (by rw [Nat.pow_succ, Nat.mul_comm] at h; exact h)
    simp only [fixed, lowFirst]
    rw [lowFirst_fixed w _ h2]
    have : (UInt8.ofNat (n % 256)).toNat = n % 256 := by
      exact UInt8.toNat_ofNat_of_lt' (by simp only [UInt8.size]; omega)
    omega

theorem fixed_length : ∀ (w n : Nat), (fixed w n).length = w
  | 0, _ => rfl
  | w + 1, n => by simp [fixed, fixed_length w]

theorem varint_is (n : Nat) : Varint n (varint n) := by
  induction n using Nat.strongRecOn with
  | ind n ih =>
    unfold varint
    split
    · next h =>
      have : (UInt8.ofNat n).toNat = n := by exact UInt8.toNat_ofNat_of_lt' (by simp only [UInt8.size]; omega)
      have h2 := Varint.last (UInt8.ofNat n) (by omega)
      rwa [this] at h2
    · next h =>
      have : (UInt8.ofNat (128 + n % 128)).toNat = 128 + n % 128 := by exact UInt8.toNat_ofNat_of_lt' (by simp only [UInt8.size]; omega)
      have h2 := Varint.more (UInt8.ofNat (128 + n % 128)) (by omega) (ih (n / 128) (by omega))
      rw [this] at h2
      have e : 128 + n % 128 - 128 + 128 * (n / 128) = n := by omega
      rwa [e] at h2

theorem varint_length (k : Nat) : ∀ (n : Nat), n < 128 ^ (k + 1) → (varint n).length ≤ k + 1 := by
  induction k with
  | zero =>
    intro n h
    unfold varint
    rw [if_pos (by simpa using h)]
    simp
  | succ k ih =>
    intro n h
    unfold varint
    split
    · simp
    · have h2 : n / 128 < 128 ^ (k + 1) := Nat.div_lt_of_lt_mul (by rw [Nat.pow_succ, Nat.mul_comm] at h; exact h)
      simp only [List.length_cons]
      have := ih _ h2
      omega

theorem tag_is (number type : Nat) (hn : number ≠ 0) (hb : number < 2 ^ 29) (ht : type < 8) : Tag number type (varint (8 * number + type)) :=
  ⟨_, varint_is _, varint_length 4 _ (by omega), by omega, ht, hn⟩

/-! ## Fields -/

theorem readWireValue_of {type : Nat} {v : WireValue} {vb : Bytes} (h : OnWire type v vb) (rest : Bytes) :
    readWireValue type (vb ++ rest) = some (v, rest) := by
  cases h with
  | varint h hl => simp [readWireValue, readVarint_of h _ hl]
  | fixed64 h hl =>
    rw [lowFirst_iff] at h
    simp only [readWireValue, List.length_append, hl]
    simp [← hl, h]
  | block h hl hb =>
    simp only [readWireValue, List.append_assoc, readVarint_of h _ hl]
    simp [hb]
  | fixed32 h hl =>
    rw [lowFirst_iff] at h
    simp only [readWireValue, List.length_append, hl]
    simp [← hl, h]

theorem readWireValue_sound {type : Nat} {v : WireValue} {xs rest : Bytes} (h : readWireValue type xs = some (v, rest)) :
    ∃ vb, OnWire type v vb ∧ xs = vb ++ rest := by
  unfold readWireValue at h
  split at h
  · next ht =>
    subst ht
    split at h
    · next n rest' hr =>
      cases h
      obtain ⟨bs, h1, h2, h3⟩ := readVarint_sound _ _ _ _ hr
      exact ⟨bs, .varint h1 h2, h3⟩
    · cases h
  · split at h
    · next ht =>
      subst ht
      split at h
      · cases h
      · next hl =>
        cases h
        exact ⟨xs.take 8, .fixed64 ((lowFirst_iff _ _).2 rfl) (by simp; omega), (List.take_append_drop 8 xs).symm⟩
    · split at h
      · next ht =>
        subst ht
        split at h
        · next n rest' hr =>
          split at h
          · next hn =>
            cases h
            obtain ⟨bs, h1, h2, h3⟩ := readVarint_sound _ _ _ _ hr
            have e : (rest'.take n).length = n := by simp; omega
            refine ⟨bs ++ rest'.take n, .block (by rw [e]; exact h1) h2 (by rw [e]; exact hn.1), ?_⟩
            rw [h3, List.append_assoc, List.take_append_drop]
          · cases h
        · cases h
      · split at h
        · next ht =>
          subst ht
          split at h
          · cases h
          · next hl =>
            cases h
            exact ⟨xs.take 4, .fixed32 ((lowFirst_iff _ _).2 rfl) (by simp; omega), (List.take_append_drop 4 xs).symm⟩
        · cases h

theorem readFields_nil (f : Nat) (groups : List Nat) : readFields f groups [] = if groups = [] then some [] else none := by
  cases f <;> rfl

/-- The fuel does not matter if there is enough of it. -/
theorem readFields_fuel : ∀ (f g : Nat) (groups : List Nat) (bs : Bytes), bs.length ≤ f → bs.length ≤ g →
    readFields f groups bs = readFields g groups bs
  | f, g, groups, [], _, _ => by rw [readFields_nil, readFields_nil]
  | 0, _, _, _ :: _, h, _ => by simp at h
  | _ + 1, 0, _, _ :: _, _, h => by simp at h
  | f + 1, g + 1, groups, b :: bs, hf, hg => by
    simp only [List.length_cons] at hf hg
    simp only [readFields]
    rcases hr : readVarint 5 (b :: bs) with _ | ⟨t, rest⟩
    · rfl
    · obtain ⟨tb, h1, _, h3⟩ := readVarint_sound _ _ _ _ hr
      have hlen : rest.length ≤ bs.length := by
        have := congrArg List.length h3
        have hp := List.length_pos_iff.2 (varint_ne h1)
        simp at this
        omega
      simp only
      split
      · rfl
      · split
        · exact readFields_fuel f g _ rest (by omega) (by omega)
        · split
          · cases groups with
            | nil => rfl
            | cons x xs =>
              simp only
              split
              · exact readFields_fuel f g _ rest (by omega) (by omega)
              · rfl
          · rcases hv : readWireValue (t % 2 ^ 32 % 8) rest with _ | ⟨v, rest'⟩
            · rfl
            · obtain ⟨vb, _, h5⟩ := readWireValue_sound hv
              have : rest'.length ≤ rest.length := by rw [h5]; simp
              simp only
              rw [readFields_fuel f g groups rest' (by omega) (by omega)]

/-- The same with just enough fuel. -/
def readAll (groups : List Nat) (bs : Bytes) : Option (List (Nat × WireValue)) := readFields bs.length groups bs

theorem readAll_tag {number type : Nat} {tb : Bytes} (h : Tag number type tb) (groups : List Nat) (rest : Bytes) :
    readAll groups (tb ++ rest) =
      if type = 3 then readAll (number :: groups) rest
      else if type = 4 then
        match groups with
        | [] => none
        | g :: gs => if g = number then readAll gs rest else none
      else
        match readWireValue type rest with
        | none => none
        | some (v, rest') =>
          match readAll groups rest' with
          | none => none
          | some fs => some (if groups = [] then (number, v) :: fs else fs) := by
  obtain ⟨t, h1, h2, h3, h4, h5⟩ := h
  have hp := List.length_pos_iff.2 (varint_ne h1)
  unfold readAll
  obtain ⟨b, bs, hb⟩ : ∃ b bs, tb ++ rest = b :: bs := by
    cases tb with
    | nil => simp at hp
    | cons b tb => exact ⟨b, tb ++ rest, rfl⟩
  have hlen : rest.length ≤ bs.length := by
    have := congrArg List.length hb
    simp at this
    omega
  have hr := readVarint_of h1 5 h2 rest
  rw [hb] at hr ⊢
  simp only [List.length_cons, readFields, hr, h3]
  rw [if_neg (by omega), show (8 * number + type) % 8 = type by omega, show (8 * number + type) / 8 = number by omega]
  split
  · exact readFields_fuel _ _ _ _ hlen (Nat.le_refl _)
  · split
    · cases groups with
      | nil => rfl
      | cons x xs =>
        simp only
        split
        · exact readFields_fuel _ _ _ _ hlen (Nat.le_refl _)
        · rfl
    · rcases hv : readWireValue type rest with _ | ⟨v, rest'⟩
      · rfl
      · obtain ⟨vb, _, h5⟩ := readWireValue_sound hv
        have : rest'.length ≤ rest.length := by rw [h5]; simp
        simp only
        rw [readFields_fuel bs.length rest'.length groups rest' (by omega) (Nat.le_refl _)]
        cases readFields rest'.length groups rest' <;> rfl

theorem onWire_type {type : Nat} {v : WireValue} {vb : Bytes} (h : OnWire type v vb) : type ≠ 3 ∧ type ≠ 4 := by
  cases h <;> decide

theorem readAll_of {fs : List (Nat × WireValue)} {bs : Bytes} (h : Wire fs bs) : ∀ (groups : List Nat) (rest : Bytes),
    readAll groups (bs ++ rest) = (readAll groups rest).map fun xs => if groups = [] then fs ++ xs else xs := by
  induction h with
  | nil =>
    intro groups rest
    cases hr : readAll groups rest <;> simp [hr]
  | field ht hv _ ih =>
    intro groups rest
    rw [List.append_assoc, List.append_assoc, readAll_tag ht, if_neg (onWire_type hv).1, if_neg (onWire_type hv).2, readWireValue_of hv]
    simp only
    rw [ih groups rest]
    rcases readAll groups rest with _ | xs
    · rfl
    · simp only [Option.map_some]
      split <;> simp_all
  | group ht _ he _ ih1 ih2 =>
    intro groups rest
    rw [List.append_assoc, List.append_assoc, List.append_assoc, readAll_tag ht, if_pos rfl, ih1, readAll_tag he, if_neg (by decide), if_pos rfl]
    simp only
    rw [ih2 groups rest]
    simp
    rfl

/-- What follows open groups. -/
def Closing (fs : List (Nat × WireValue)) : List Nat → Bytes → Prop
  | [], bs => Wire fs bs
  | g :: gs, bs => ∃ inner ib eb rest, Wire inner ib ∧ Tag g 4 eb ∧ Closing fs gs rest ∧ bs = ib ++ eb ++ rest

theorem readFields_sound : ∀ (f : Nat) (groups : List Nat) (bs : Bytes) (fs : List (Nat × WireValue)), readFields f groups bs = some fs →
    Closing fs groups bs
  | f, groups, [], fs, h => by
    rw [readFields_nil] at h
    split at h
    · next hg => cases h; subst hg; exact .nil
    · cases h
  | 0, _, _ :: _, _, h => by cases h
  | f + 1, groups, b :: bs, fs, h => by
    simp only [readFields] at h
    rcases hr : readVarint 5 (b :: bs) with _ | ⟨t, rest⟩
    · rw [hr] at h; cases h
    · rw [hr] at h
      simp only at h
      obtain ⟨tb, h1, h2, h3⟩ := readVarint_sound _ _ _ _ hr
      split at h
      · cases h
      · next hnum =>
        have htag (type : Nat) (e : t % 2 ^ 32 % 8 = type) : Tag (t % 2 ^ 32 / 8) type tb :=
          ⟨t, h1, h2, by omega, by omega, hnum⟩
        rw [h3]
        split at h
        · next h3' =>
          obtain ⟨inner, ib, eb, rest', k1, k2, k3, k4⟩ := readFields_sound f _ rest fs h
          rw [k4]
          cases groups with
          | nil =>
            have := Wire.group (htag 3 h3') k1 k2 k3
            simpa [Closing] using this
          | cons g gs =>
            obtain ⟨inner2, ib2, eb2, rest2, l1, l2, l3, l4⟩ := k3
            refine ⟨inner2, tb ++ ib ++ eb ++ ib2, eb2, rest2, Wire.group (htag 3 h3') k1 k2 l1, l2, l3, ?_⟩
            rw [l4]
            simp
        · split at h
          · next h4' =>
            cases groups with
            | nil => cases h
            | cons g gs =>
              simp only at h
              split at h
              · next hg =>
                subst hg
                exact ⟨[], [], tb, rest, .nil, htag 4 h4', readFields_sound f gs rest fs h, by simp⟩
              · cases h
          · rcases hv : readWireValue (t % 2 ^ 32 % 8) rest with _ | ⟨v, rest'⟩
            · rw [hv] at h; cases h
            · rw [hv] at h
              simp only at h
              obtain ⟨vb, k1, k2⟩ := readWireValue_sound hv
              rcases hf : readFields f groups rest' with _ | fs'
              · rw [hf] at h; cases h
              · rw [hf] at h
                simp only [Option.some.injEq] at h
                have ih := readFields_sound f groups rest' fs' hf
                rw [k2]
                cases groups with
                | nil =>
                  simp only [if_pos rfl] at h
                  subst h
                  have := Wire.field (htag _ rfl) k1 ih
                  simpa [Closing] using this
                | cons g gs =>
                  simp only [reduceCtorEq, if_false] at h
                  subst h
                  obtain ⟨inner, ib, eb, rest2, l1, l2, l3, l4⟩ := ih
                  refine ⟨_, tb ++ vb ++ ib, eb, rest2, Wire.field (htag _ rfl) k1 l1, l2, l3, ?_⟩
                  rw [l4]
                  simp

theorem wireFields_iff (bs : Bytes) (fs : List (Nat × WireValue)) : wireFields bs = some fs ↔ Wire fs bs := by
  constructor
  · exact readFields_sound _ [] bs fs
  · intro h
    have := readAll_of h [] []
    rw [List.append_nil] at this
    rw [show wireFields bs = readAll [] bs from rfl, this]
    simp [readAll, readFields_nil]

/-! ## Messages that were written -/

theorem wire_append {fs gs : List (Nat × WireValue)} {a b : Bytes} (h1 : Wire fs a) (h2 : Wire gs b) : Wire (fs ++ gs) (a ++ b) := by
  induction h1 with
  | nil => exact h2
  | field ht hv _ ih =>
    have := Wire.field ht hv ih
    simpa using this
  | group ht hi he _ _ ih =>
    have := Wire.group ht hi he ih
    simpa using this

theorem wire_block {number : Nat} {b : Bytes} (hn : number ≠ 0) (hb : number < 2 ^ 29) (hl : b.length < 2 ^ 31 - 16) :
    Wire [(number, .block b)] (block number b) := by
  have := Wire.field (tag_is number 2 hn hb (by decide)) (.block (varint_is b.length) (varint_length 4 _ (by omega)) hl) .nil
  simpa [block] using this

theorem block_length (number : Nat) (b : Bytes) : b.length ≤ (block number b).length := by
  simp [block]
  omega

theorem readMessage_wire {α : Type} {step : α → Nat × WireValue → Option α} {fs : List (Nat × WireValue)} {bs : Bytes} (h : Wire fs bs) (a : α) :
    readMessage step a bs = eachField step a fs := by
  unfold readMessage
  rw [(wireFields_iff _ _).2 h]

theorem eachField_append {α : Type} (step : α → Nat × WireValue → Option α) : ∀ (fs gs : List (Nat × WireValue)) (a : α),
    eachField step a (fs ++ gs) = (eachField step a fs).bind fun a' => eachField step a' gs
  | [], gs, a => rfl
  | f :: fs, gs, a => by
    simp only [List.cons_append, eachField]
    rcases step a f with _ | a'
    · rfl
    · exact eachField_append step fs gs a'

theorem packedVarints_of (enc : Nat → Bytes) (val : Nat → Nat) : ∀ (ns : List Nat),
    (∀ n ∈ ns, Varint (val n) (enc n) ∧ (enc n).length ≤ 10) → ∀ f, (ns.flatMap enc).length ≤ f →
    packedVarints f (ns.flatMap enc) = some (ns.map fun n => val n % 2 ^ 64)
  | [], _, f, _ => by cases f <;> rfl
  | n :: ns, h, f, hf => by
    obtain ⟨h1, h2⟩ := h n (by simp)
    have hp := List.length_pos_iff.2 (varint_ne h1)
    rw [List.flatMap_cons] at hf ⊢
    simp only [List.length_append] at hf
    obtain ⟨f, rfl⟩ : ∃ g, f = g + 1 := ⟨f - 1, by omega⟩
    obtain ⟨b, bs, hb⟩ : ∃ b bs, enc n ++ ns.flatMap enc = b :: bs := by
      cases henc : enc n with
      | nil => rw [henc] at hp; simp at hp
      | cons b tb => exact ⟨b, tb ++ ns.flatMap enc, rfl⟩
    have hr := readVarint_of h1 10 h2 (ns.flatMap enc)
    rw [hb] at hr ⊢
    simp only [packedVarints, hr]
    rw [packedVarints_of enc val ns (fun m hm => h m (by simp [hm])) f (by omega)]
    rfl

theorem packedFixed_of (w : Nat) (hw : 0 < w) : ∀ (ns : List Nat), (∀ n ∈ ns, n < 256 ^ w) → ∀ f, (ns.flatMap (fixed w)).length ≤ f →
    packedFixed w f (ns.flatMap (fixed w)) = some ns
  | [], _, f, _ => by cases f <;> rfl
  | n :: ns, h, f, hf => by
    rw [List.flatMap_cons] at hf ⊢
    simp only [List.length_append, fixed_length] at hf
    obtain ⟨f, rfl⟩ : ∃ g, f = g + 1 := ⟨f - 1, by omega⟩
    obtain ⟨b, bs, hb⟩ : ∃ b bs, fixed w n ++ ns.flatMap (fixed w) = b :: bs := by
      obtain ⟨w, rfl⟩ : ∃ v, w = v + 1 := ⟨w - 1, by omega⟩
      exact ⟨_, _, rfl⟩
    have e1 : (fixed w n ++ ns.flatMap (fixed w)).take w = fixed w n := List.take_left' (fixed_length w n)
    have e2 : (fixed w n ++ ns.flatMap (fixed w)).drop w = ns.flatMap (fixed w) := List.drop_left' (fixed_length w n)
    have e3 : ¬ (fixed w n ++ ns.flatMap (fixed w)).length < w := by simp [fixed_length]
    rw [hb] at e1 e2 e3 ⊢
    simp only [packedFixed, e3, if_false, e1, e2]
    rw [packedFixed_of w hw ns (fun m hm => h m (by simp [hm])) f (by omega), lowFirst_fixed w n (h n (by simp))]

theorem map_mod (ns : List Nat) (k : Nat) (h : ∀ n ∈ ns, n < k) : ns.map (fun n => n % k) = ns := by
  induction ns with
  | nil => rfl
  | cons n ns ih =>
    rw [List.map_cons, Nat.mod_eq_of_lt (h n (by simp)), ih fun m hm => h m (by simp [hm])]

theorem wholes_of (ns : List Nat) (h : ∀ n ∈ ns, n < 2 ^ 64) : wholes (.block (ns.flatMap varint)) = some ns := by
  unfold wholes
  simp only
  rw [packedVarints_of varint id ns (fun n hn => ⟨varint_is n, varint_length 9 n (Nat.lt_of_lt_of_le (h n hn) (by decide))⟩) _ (Nat.le_refl _)]
  exact congrArg some (map_mod ns _ h)

/-- How the values of a type are written. -/
def encOf (dt : DataType) : Nat → Bytes := if dt = .float32 then fixed 4 else if dt = .float64 then fixed 8 else int32

theorem valuesOf_of (dt : DataType) (hd : dt = .float32 ∨ dt = .float64 ∨ dt = .int32) (ns : List Nat)
    (h : ∀ n ∈ ns, n < if dt = .float64 then 2 ^ 64 else 2 ^ 32) : valuesOf dt (.block (ns.flatMap (encOf dt))) = some ns := by
  unfold valuesOf
  simp only
  rcases hd with rfl | rfl | rfl
  · simp only [if_pos rfl, encOf]
    exact packedFixed_of 4 (by decide) ns (fun n hn => by simpa using h n hn) _ (Nat.le_refl _)
  · simp only [reduceCtorEq, if_false, if_pos rfl, encOf]
    exact packedFixed_of 8 (by decide) ns (fun n hn => by simpa using h n hn) _ (Nat.le_refl _)
  · simp only [reduceCtorEq, if_false, encOf] at h ⊢
    rw [packedVarints_of int32 (fun n => if n < 2 ^ 31 then n else n + (2 ^ 64 - 2 ^ 32)) ns
      (fun n hn => ⟨varint_is _, varint_length 9 _ (by have := h n hn; split <;> omega)⟩) _ (Nat.le_refl _)]
    simp only [List.map_map, Option.some.injEq]
    have : ∀ n ∈ ns, ((fun x => x % 2 ^ 32) ∘ fun n => (if n < 2 ^ 31 then n else n + (2 ^ 64 - 2 ^ 32)) % 2 ^ 64) n = n := by
      intro n hn
      have := h n hn
      simp only [Function.comp_apply]
      split <;> omega
    rw [List.map_congr_left this, List.map_id']

theorem packed_wire (number : Nat) (enc : Nat → Bytes) (ns : List Nat) (hn : number ≠ 0) (hb : number < 2 ^ 29)
    (hl : (packed number enc ns).length < 2 ^ 31 - 16) :
    Wire (if ns = [] then [] else [(number, .block (ns.flatMap enc))]) (packed number enc ns) := by
  unfold packed at hl ⊢
  split
  · exact .nil
  · next h =>
    rw [if_neg h] at hl
    exact wire_block hn hb (Nat.lt_of_le_of_lt (block_length _ _) hl)

theorem writeTensor_read (dt : DataType) (t : PTensor Nat) (h : PValueFits (.tensor dt t)) (hl : (writeTensor dt t).length < 2 ^ 31 - 16) :
    readMessage (tensorField dt) ⟨[], [], []⟩ (writeTensor dt t) = some t := by
  obtain ⟨hd, hv, hk, hs⟩ := h
  obtain ⟨vs, ks, ss⟩ := t
  have e : writeTensor dt ⟨vs, ks, ss⟩ = packed 1 (encOf dt) vs ++ packed 2 varint ks ++ packed 3 varint ss := rfl
  rw [e] at hl ⊢
  simp only [List.length_append] at hl
  rw [readMessage_wire (wire_append (wire_append (packed_wire 1 (encOf dt) vs (by decide) (by decide) (by omega))
    (packed_wire 2 varint ks (by decide) (by decide) (by omega))) (packed_wire 3 varint ss (by decide) (by decide) (by omega)))]
  rw [eachField_append, eachField_append]
  have s1 : eachField (tensorField dt) ⟨[], [], []⟩ (if vs = [] then [] else [(1, .block (vs.flatMap (encOf dt)))]) = some ⟨vs, [], []⟩ := by
    split
    · next h => subst h; rfl
    · simp [eachField, tensorField, valuesOf_of dt hd vs hv]
  have s2 : eachField (tensorField dt) ⟨vs, [], []⟩ (if ks = [] then [] else [(2, .block (ks.flatMap varint))]) = some ⟨vs, ks, []⟩ := by
    split
    · next h => subst h; rfl
    · simp [eachField, tensorField, wholes_of ks hk]
  have s3 : eachField (tensorField dt) ⟨vs, ks, []⟩ (if ss = [] then [] else [(3, .block (ss.flatMap varint))]) = some ⟨vs, ks, ss⟩ := by
    split
    · next h => subst h; rfl
    · simp [eachField, tensorField, wholes_of ss hs]
  rw [s1]
  simp only [Option.bind_some, s2, s3]

theorem writeValue_read (v : PValue Nat) (h : PValueFits v) (hl : (writeValue v).length < 2 ^ 31 - 16) :
    readMessage valueField .unset (writeValue v) = some v := by
  cases v with
  | tensor dt t =>
    unfold writeValue at hl ⊢
    simp only at hl ⊢
    have hl2 := Nat.lt_of_le_of_lt (block_length _ _) hl
    have ht := writeTensor_read dt t h hl2
    rcases h.1 with rfl | rfl | rfl
    · rw [readMessage_wire (wire_block (by decide) (by decide) hl2)]
      simp [eachField, valueField, PValue.tensorOr, ht]
    · rw [readMessage_wire (wire_block (by decide) (by decide) hl2)]
      simp [eachField, valueField, PValue.tensorOr, ht]
    · rw [readMessage_wire (wire_block (by decide) (by decide) hl2)]
      simp [eachField, valueField, PValue.tensorOr, ht]
  | bytes =>
    unfold writeValue
    rw [readMessage_wire (wire_block (by decide) (by decide) (by decide))]
    simp [eachField, valueField, wireFields, readFields_nil]
  | unset =>
    unfold writeValue
    rw [readMessage_wire .nil]
    rfl

theorem writeEntry_read (number : Nat) (e : Bytes × PValue Nat) (h : PValueFits e.2) (hl : (writeEntry number e).length < 2 ^ 31 - 16) :
    (block 1 e.1 ++ block 2 (writeValue e.2)).length < 2 ^ 31 - 16 ∧
    readMessage entryField ([], .unset) (block 1 e.1 ++ block 2 (writeValue e.2)) = some e := by
  unfold writeEntry at hl
  have hl2 := Nat.lt_of_le_of_lt (block_length _ _) hl
  refine ⟨hl2, ?_⟩
  simp only [List.length_append] at hl2
  have b1 := block_length 1 e.1
  have b2 := block_length 2 (writeValue e.2)
  rw [readMessage_wire (wire_append (wire_block (by decide) (by decide) (by omega)) (wire_block (by decide) (by decide) (by omega)))]
  simp [eachField, entryField, writeValue_read e.2 h (by omega)]

theorem putEntry_new : ∀ (es : List (Bytes × PValue Nat)) (e : Bytes × PValue Nat), e.1 ∉ es.map (·.1) → putEntry es e = es ++ [e]
  | [], e, _ => rfl
  | x :: xs, e, h => by
    simp only [List.map_cons, List.mem_cons, not_or] at h
    simp only [putEntry, List.cons_append]
    rw [if_neg (fun he => h.1 he.symm), putEntry_new xs e h.2]

/-- The field of an entry. -/
def entryBlock (number : Nat) (e : Bytes × PValue Nat) : Nat × WireValue := (number, .block (block 1 e.1 ++ block 2 (writeValue e.2)))

theorem entries_wire (number : Nat) (hn : number ≠ 0) (hb : number < 2 ^ 29) : ∀ (es : List (Bytes × PValue Nat)), (∀ e ∈ es, PValueFits e.2) →
    (es.flatMap (writeEntry number)).length < 2 ^ 31 - 16 → Wire (es.map (entryBlock number)) (es.flatMap (writeEntry number))
  | [], _, _ => .nil
  | e :: es, h, hl => by
    rw [List.flatMap_cons] at hl ⊢
    simp only [List.length_append] at hl
    have h1 := (writeEntry_read number e (h e (by simp)) (by omega)).1
    have := wire_append (wire_block (number := number) hn hb h1) (entries_wire number hn hb es (fun x hx => h x (by simp [hx])) (by omega))
    simpa [entryBlock, writeEntry] using this

theorem features_read : ∀ (es : List (Bytes × PValue Nat)) (r : PRecord Nat), (∀ e ∈ es, PValueFits e.2) →
    (es.flatMap (writeEntry 1)).length < 2 ^ 31 - 16 → (r.features.map (·.1) ++ es.map (·.1)).Nodup →
    eachField recordField r (es.map (entryBlock 1)) = some { r with features := r.features ++ es }
  | [], r, _, _, _ => by simp [eachField]
  | e :: es, r, h, hl, hd => by
    rw [List.flatMap_cons] at hl
    simp only [List.length_append] at hl
    have h1 := (writeEntry_read 1 e (h e (by simp)) (by omega)).2
    have hnew : e.1 ∉ r.features.map (·.1) := by
      intro hm
      rw [List.nodup_append] at hd
      exact hd.2.2 _ hm _ (by simp) rfl
    simp only [List.map_cons, eachField, recordField, entryBlock, if_pos rfl, h1]
    rw [putEntry_new _ _ hnew]
    have := features_read es { r with features := r.features ++ [e] } (fun x hx => h x (by simp [hx])) (by omega)
      (by simpa using hd)
    simp only at this
    rw [List.append_assoc] at this
    exact this

theorem labels_read : ∀ (es : List (Bytes × PValue Nat)) (r : PRecord Nat), (∀ e ∈ es, PValueFits e.2) →
    (es.flatMap (writeEntry 2)).length < 2 ^ 31 - 16 → (r.label.map (·.1) ++ es.map (·.1)).Nodup →
    eachField recordField r (es.map (entryBlock 2)) = some { r with label := r.label ++ es }
  | [], r, _, _, _ => by simp [eachField]
  | e :: es, r, h, hl, hd => by
    rw [List.flatMap_cons] at hl
    simp only [List.length_append] at hl
    have h1 := (writeEntry_read 2 e (h e (by simp)) (by omega)).2
    have hnew : e.1 ∉ r.label.map (·.1) := by
      intro hm
      rw [List.nodup_append] at hd
      exact hd.2.2 _ hm _ (by simp) rfl
    simp only [List.map_cons, eachField, recordField, entryBlock, if_pos rfl, h1]
    rw [if_neg (by decide), putEntry_new _ _ hnew]
    have := labels_read es { r with label := r.label ++ [e] } (fun x hx => h x (by simp [hx])) (by omega)
      (by simpa using hd)
    simp only at this
    rw [List.append_assoc] at this
    exact this

/-- The fields of a text that may be missing. -/
def textBlock (number : Nat) : Option Bytes → List (Nat × WireValue)
  | none => []
  | some x => [(number, .block x)]

theorem text_wire (number : Nat) (hn : number ≠ 0) (hb : number < 2 ^ 29) (x : Option Bytes) (hl : (writeText number x).length < 2 ^ 31 - 16) :
    Wire (textBlock number x) (writeText number x) := by
  cases x with
  | none => exact .nil
  | some x => exact wire_block hn hb (Nat.lt_of_le_of_lt (block_length _ _) hl)

theorem text_read (number : Nat) (h1 : number ≠ 1) (h2 : number ≠ 2) (x : Option Bytes) (r : PRecord Nat) :
    eachField recordField r (textBlock number x) = some r := by
  cases x with
  | none => rfl
  | some x => simp [textBlock, eachField, recordField, h1, h2]

/-- The fields of a message that was written. -/
def Spec.Msg.fields (m : Msg) : List (Nat × WireValue) :=
  m.record.features.map (entryBlock 1) ++ m.record.label.map (entryBlock 2) ++ textBlock 3 m.uid ++ textBlock 4 m.metadata ++ textBlock 5 m.configuration

theorem write_wire (m : Msg) (h : m.Fits) : Wire m.fields m.write := by
  have hl := h.size
  unfold Msg.write at hl ⊢
  simp only [List.length_append] at hl
  exact wire_append (wire_append (wire_append (wire_append
    (entries_wire 1 (by decide) (by decide) _ (fun e he => h.values e (by simp [he])) (by omega))
    (entries_wire 2 (by decide) (by decide) _ (fun e he => h.values e (by simp [he])) (by omega)))
    (text_wire 3 (by decide) (by decide) _ (by omega))) (text_wire 4 (by decide) (by decide) _ (by omega)))
    (text_wire 5 (by decide) (by decide) _ (by omega))

theorem fields_read (m : Msg) (h : m.Fits) : eachField recordField ⟨[], []⟩ m.fields = some m.record := by
  have hl := h.size
  unfold Msg.write at hl
  simp only [List.length_append] at hl
  unfold Msg.fields
  rw [eachField_append, eachField_append, eachField_append, eachField_append]
  rw [features_read m.record.features ⟨[], []⟩ (fun e he => h.values e (by simp [he])) (by omega) (by simpa using h.names.1)]
  simp only [Option.bind_some]
  rw [labels_read m.record.label _ (fun e he => h.values e (by simp [he])) (by omega) (by simpa using h.names.2)]
  simp only [Option.bind_some]
  rw [text_read 3 (by decide) (by decide)]
  simp only [Option.bind_some]
  rw [text_read 4 (by decide) (by decide)]
  simp only [Option.bind_some]
  rw [text_read 5 (by decide) (by decide)]
  simp

/-! ## Other fields, repeated entries -/

theorem unused_field (r : PRecord Nat) (f : Nat × WireValue) (h : inMaps f = false) : recordField r f = some r := by
  obtain ⟨n, v⟩ := f
  cases v with
  | block b =>
    unfold recordField
    simp only
    rw [if_neg, if_neg]
    · rintro rfl; cases h
    · rintro rfl; cases h
  | _ => rfl

theorem eachField_used : ∀ (fs : List (Nat × WireValue)) (r : PRecord Nat),
    eachField recordField r fs = eachField recordField r (fs.filter inMaps)
  | [], r => rfl
  | f :: fs, r => by
    cases hu : inMaps f with
    | false =>
      rw [List.filter_cons_of_neg (by simp [hu])]
      simp only [eachField, unused_field r f hu]
      exact eachField_used fs r
    | true =>
      rw [List.filter_cons_of_pos hu]
      simp only [eachField]
      cases recordField r f with
      | none => rfl
      | some r' => exact eachField_used fs r'

theorem putEntry_lookup (es : List (Bytes × PValue Nat)) (e : Bytes × PValue Nat) (n : Bytes) :
    (putEntry es e).lookup n = if n = e.1 then some e.2 else es.lookup n := by
  induction es with
  | nil =>
    simp only [putEntry, List.lookup]
    by_cases h : n = e.1
    · simp [h]
    · simp [h, show (n == e.1) = false by simp [h]]
  | cons x xs ih =>
    simp only [putEntry]
    by_cases hx : x.1 = e.1
    · rw [if_pos hx]
      simp only [List.lookup]
      by_cases h : n = e.1
      · simp [h]
      · have : n ≠ x.1 := fun h' => h (h'.trans hx)
        simp [h, show (n == e.1) = false by simp [h], show (n == x.1) = false by simp [this]]
    · rw [if_neg hx]
      simp only [List.lookup]
      by_cases h : n = x.1
      · subst h
        simp [hx]
      · simp only [show (n == x.1) = false by simp [h], ih]

theorem putEntry_names (es : List (Bytes × PValue Nat)) (e : Bytes × PValue Nat) (h : (es.map (·.1)).Nodup) :
    ((putEntry es e).map (·.1)).Nodup ∧ ∀ n, n ∈ (putEntry es e).map (·.1) → n = e.1 ∨ n ∈ es.map (·.1) := by
  induction es with
  | nil => simp [putEntry]
  | cons x xs ih =>
    simp only [List.map_cons, List.nodup_cons] at h
    simp only [putEntry]
    by_cases hx : x.1 = e.1
    · rw [if_pos hx]
      simp only [List.map_cons, List.nodup_cons]
      exact ⟨⟨hx ▸ h.1, h.2⟩, fun n hn => by simp only [List.mem_cons] at hn ⊢; rcases hn with h | h <;> simp [h]⟩
    · rw [if_neg hx]
      obtain ⟨i1, i2⟩ := ih h.2
      simp only [List.map_cons, List.nodup_cons]
      refine ⟨⟨fun hm => ?_, i1⟩, fun n hn => ?_⟩
      · rcases i2 _ hm with h' | h'
        · exact hx h'
        · exact h.1 h'
      · simp only [List.mem_cons] at hn ⊢
        rcases hn with h' | h'
        · exact .inr (.inl h')
        · rcases i2 _ h' with h'' | h''
          · exact .inl h''
          · exact .inr (.inr h'')

theorem features_last : ∀ (es : List (Bytes × PValue Nat)) (r : PRecord Nat), (∀ e ∈ es, PValueFits e.2) →
    (es.flatMap (writeEntry 1)).length < 2 ^ 31 - 16 → (r.features.map (·.1)).Nodup →
    ∃ r', eachField recordField r (es.map (entryBlock 1)) = some r' ∧ r'.label = r.label ∧ (r'.features.map (·.1)).Nodup ∧
      ∀ n, r'.features.lookup n = (es.reverse.lookup n).or (r.features.lookup n)
  | [], r, _, _, hd => ⟨r, rfl, rfl, hd, fun n => by simp⟩
  | e :: es, r, h, hl, hd => by
    rw [List.flatMap_cons] at hl
    simp only [List.length_append] at hl
    have h1 := (writeEntry_read 1 e (h e (by simp)) (by omega)).2
    obtain ⟨r', k1, k2, k3, k4⟩ := features_last es { r with features := putEntry r.features e } (fun x hx => h x (by simp [hx])) (by omega)
      (putEntry_names _ _ hd).1
    refine ⟨r', ?_, k2, k3, fun n => ?_⟩
    · simp only [List.map_cons, eachField, recordField, entryBlock, if_pos rfl, h1]
      exact k1
    · rw [k4 n, putEntry_lookup]
      simp only [List.reverse_cons]
      rw [List.lookup_append]
      cases es.reverse.lookup n with
      | some v => rfl
      | none =>
        simp only [Option.none_or, List.lookup]
        by_cases hn : n = e.1
        · simp [hn]
        · simp [hn, show (n == e.1) = false by simp [hn]]

/-! ## Tensors in pieces -/

theorem adds_step (dt : DataType) (hd : dt = .float32 ∨ dt = .float64 ∨ dt = .int32) {f : Nat × WireValue} {p : PTensor Nat} (h : Adds dt f p)
    (t : PTensor Nat) : tensorField dt t f = some ⟨t.values ++ p.values, t.keys ++ p.keys, t.shape ++ p.shape⟩ := by
  cases h with
  | values ns hn =>
    have := valuesOf_of dt hd ns hn
    unfold encOf at this
    simp [tensorField, this]
  | value n hn =>
    rcases hd with rfl | rfl | rfl
    · simp [tensorField, valuesOf, single]
    · simp [tensorField, valuesOf, single]
    · simp only [reduceCtorEq, if_false] at hn
      have : (if n < 2 ^ 31 then n else n + (2 ^ 64 - 2 ^ 32)) % 2 ^ 32 = n := by split <;> omega
      simp only [single, reduceCtorEq, if_false, tensorField, valuesOf, if_pos rfl, this]
      simp
  | keys ns hn => simp [tensorField, wholes_of ns hn]
  | key n => simp [tensorField, wholes]
  | shape ns hn => simp [tensorField, wholes_of ns hn]
  | dim n => simp [tensorField, wholes]
  | other number v h1 h2 h3 => simp [tensorField, h1, h2, h3]

theorem adds_all (dt : DataType) (hd : dt = .float32 ∨ dt = .float64 ∨ dt = .int32) : ∀ (ps : List ((Nat × WireValue) × PTensor Nat)),
    (∀ p ∈ ps, Adds dt p.1 p.2) → ∀ t : PTensor Nat, eachField (tensorField dt) t (ps.map (·.1)) =
      some ⟨t.values ++ ps.flatMap (·.2.values), t.keys ++ ps.flatMap (·.2.keys), t.shape ++ ps.flatMap (·.2.shape)⟩
  | [], _, t => by simp [eachField]
  | p :: ps, h, t => by
    simp only [List.map_cons, eachField, adds_step dt hd (h p (by simp)) t]
    rw [adds_all dt hd ps (fun q hq => h q (by simp [hq]))]
    simp

/-! ## Values in parts -/

theorem writeTensor_onto (dt : DataType) (t t0 : PTensor Nat) (h : PValueFits (.tensor dt t)) (hl : (writeTensor dt t).length < 2 ^ 31 - 16) :
    readMessage (tensorField dt) t0 (writeTensor dt t) = some ⟨t0.values ++ t.values, t0.keys ++ t.keys, t0.shape ++ t.shape⟩ := by
  obtain ⟨hd, hv, hk, hs⟩ := h
  obtain ⟨vs, ks, ss⟩ := t
  have e : writeTensor dt ⟨vs, ks, ss⟩ = packed 1 (encOf dt) vs ++ packed 2 varint ks ++ packed 3 varint ss := rfl
  rw [e] at hl ⊢
  simp only [List.length_append] at hl
  rw [readMessage_wire (wire_append (wire_append (packed_wire 1 (encOf dt) vs (by decide) (by decide) (by omega))
    (packed_wire 2 varint ks (by decide) (by decide) (by omega))) (packed_wire 3 varint ss (by decide) (by decide) (by omega)))]
  rw [eachField_append, eachField_append]
  have s1 (t : PTensor Nat) : eachField (tensorField dt) t (if vs = [] then [] else [(1, .block (vs.flatMap (encOf dt)))]) =
      some { t with values := t.values ++ vs } := by
    split
    · next h => subst h; simp [eachField]
    · simp [eachField, tensorField, valuesOf_of dt hd vs hv]
  have s2 (t : PTensor Nat) : eachField (tensorField dt) t (if ks = [] then [] else [(2, .block (ks.flatMap varint))]) =
      some { t with keys := t.keys ++ ks } := by
    split
    · next h => subst h; simp [eachField]
    · simp [eachField, tensorField, wholes_of ks hk]
  have s3 (t : PTensor Nat) : eachField (tensorField dt) t (if ss = [] then [] else [(3, .block (ss.flatMap varint))]) =
      some { t with shape := t.shape ++ ss } := by
    split
    · next h => subst h; simp [eachField]
    · simp [eachField, tensorField, wholes_of ss hs]
  simp only [s1, s2, s3, Option.bind_some]

theorem merge_tensor (v0 : PValue Nat) (dt : DataType) (t : PTensor Nat) : merge v0 (.tensor dt t) =
    .tensor dt ⟨(v0.tensorOr dt).values ++ t.values, (v0.tensorOr dt).keys ++ t.keys, (v0.tensorOr dt).shape ++ t.shape⟩ := by
  cases v0 with
  | tensor d a =>
    simp only [merge, PValue.tensorOr]
    by_cases h : d = dt
    · subst h; simp
    · simp [h]
  | bytes => simp [merge, PValue.tensorOr]
  | unset => simp [merge, PValue.tensorOr]

theorem writeValue_onto (v0 v : PValue Nat) (h : PValueFits v) (hl : (writeValue v).length < 2 ^ 31 - 16) :
    readMessage valueField v0 (writeValue v) = some (merge v0 v) := by
  cases v with
  | tensor dt t =>
    unfold writeValue at hl ⊢
    simp only at hl ⊢
    have hl2 := Nat.lt_of_le_of_lt (block_length _ _) hl
    have ht := writeTensor_onto dt t (v0.tensorOr dt) h hl2
    rw [merge_tensor]
    rcases h.1 with rfl | rfl | rfl
    · rw [readMessage_wire (wire_block (by decide) (by decide) hl2)]
      simp [eachField, valueField, ht]
    · rw [readMessage_wire (wire_block (by decide) (by decide) hl2)]
      simp [eachField, valueField, ht]
    · rw [readMessage_wire (wire_block (by decide) (by decide) hl2)]
      simp [eachField, valueField, ht]
  | bytes =>
    unfold writeValue
    rw [readMessage_wire (wire_block (by decide) (by decide) (by decide))]
    cases v0 <;> simp [eachField, valueField, wireFields, readFields_nil, merge]
  | unset =>
    unfold writeValue
    rw [readMessage_wire .nil]
    cases v0 <;> rfl

theorem parts_read : ∀ (parts : List (Bytes ⊕ PValue Nat)) (e : Bytes × PValue Nat), (∀ v, .inr v ∈ parts → PValueFits v) →
    (parts.flatMap writePart).length < 2 ^ 31 - 16 →
    ∃ fs, Wire fs (parts.flatMap writePart) ∧ eachField entryField e fs =
      some (parts.foldl (fun e p => match p with | .inl name => (name, e.2) | .inr v => (e.1, merge e.2 v)) e)
  | [], e, _, _ => ⟨[], .nil, rfl⟩
  | p :: ps, e, h, hl => by
    rw [List.flatMap_cons] at hl ⊢
    simp only [List.length_append] at hl
    cases p with
    | inl name =>
      obtain ⟨fs, h1, h2⟩ := parts_read ps (name, e.2) (fun v hv => h v (by simp [hv])) (by omega)
      have b1 := block_length 1 name
      simp only [writePart] at hl ⊢
      refine ⟨_, wire_append (wire_block (number := 1) (by decide) (by decide) (by omega)) h1, ?_⟩
      simpa [eachField, entryField] using h2
    | inr v =>
      obtain ⟨fs, h1, h2⟩ := parts_read ps (e.1, merge e.2 v) (fun v hv => h v (by simp [hv])) (by omega)
      have b1 := block_length 2 (writeValue v)
      simp only [writePart] at hl ⊢
      refine ⟨_, wire_append (wire_block (number := 2) (by decide) (by decide) (by omega)) h1, ?_⟩
      simpa [eachField, entryField, writeValue_onto e.2 v (h v (by simp)) (by omega)] using h2

/-! ## Parts that are not well formed -/

theorem eachField_none {α : Type} (step : α → Nat × WireValue → Option α) (f : Nat × WireValue) (h : ∀ a, step a f = none) :
    ∀ (fs : List (Nat × WireValue)) (a : α), f ∈ fs → eachField step a fs = none
  | g :: fs, a, hm => by
    simp only [eachField]
    rcases List.mem_cons.1 hm with rfl | hm
    · rw [h a]
    · cases step a g with
      | none => rfl
      | some a' => exact eachField_none step f h fs a' hm

theorem wireFields_none {b : Bytes} (h : ¬ ∃ fs, Wire fs b) : wireFields b = none := by
  cases hv : wireFields b with
  | none => rfl
  | some hs => exact absurd ⟨hs, (wireFields_iff _ _).1 hv⟩ h

theorem packedVarints_none : ∀ (f : Nat) (x : Bytes), ¬ Varints x → packedVarints f x = none
  | _, [], h => absurd .nil h
  | 0, _ :: _, _ => rfl
  | f + 1, b :: bs, h => by
    simp only [packedVarints]
    rcases hr : readVarint 10 (b :: bs) with _ | ⟨n, rest⟩
    · rfl
    · obtain ⟨vb, h1, h2, h3⟩ := readVarint_sound _ _ _ _ hr
      simp only
      rw [packedVarints_none f rest (fun hv => h (h3 ▸ .cons h1 h2 hv))]

theorem packedFixed_none (w : Nat) (hw : 0 < w) : ∀ (f : Nat) (x : Bytes), x.length % w ≠ 0 → packedFixed w f x = none
  | _, [], h => absurd (by simp) h
  | 0, _ :: _, _ => rfl
  | f + 1, b :: bs, h => by
    simp only [packedFixed]
    split
    · rfl
    · next hl =>
      rw [packedFixed_none w hw f ((b :: bs).drop w) ?_]
      rw [List.length_drop]
      intro h0
      apply h
      rw [← Nat.sub_add_cancel (Nat.le_of_not_lt hl), Nat.add_mod_right]
      exact h0

theorem broken_tensor {number : Nat} {b : Bytes} (h : Broken number b) (dt : DataType)
    (hd : (number = 2 ∧ dt = .float32) ∨ (number = 3 ∧ dt = .float64) ∨ (number = 7 ∧ dt = .int32)) (t : PTensor Nat) :
    readMessage (tensorField dt) t b = none := by
  cases h with
  | fields _ hb =>
    unfold readMessage
    rw [wireFields_none hb]
  | values32 hw hm hx =>
    rw [readMessage_wire hw]
    refine eachField_none _ _ (fun a => ?_) _ _ hm
    obtain rfl : dt = .float32 := by simpa using hd
    simp [tensorField, valuesOf, packedFixed_none 4 (by decide) _ _ hx]
  | values64 hw hm hx =>
    rw [readMessage_wire hw]
    refine eachField_none _ _ (fun a => ?_) _ _ hm
    obtain rfl : dt = .float64 := by simpa using hd
    simp [tensorField, valuesOf, packedFixed_none 8 (by decide) _ _ hx]
  | valuesInt hw hm hx =>
    rw [readMessage_wire hw]
    refine eachField_none _ _ (fun a => ?_) _ _ hm
    obtain rfl : dt = .int32 := by simpa using hd
    simp [tensorField, valuesOf, packedVarints_none _ _ hx]
  | wholes _ hk hw hm hx =>
    rw [readMessage_wire hw]
    refine eachField_none _ _ (fun a => ?_) _ _ hm
    rcases hk with rfl | rfl <;> simp [tensorField, wholes, packedVarints_none _ _ hx]

theorem broken_number {number : Nat} {b : Bytes} (h : Broken number b) : number = 2 ∨ number = 3 ∨ number = 7 ∨ number = 9 := by
  cases h with
  | fields h _ => exact h
  | values32 => simp
  | values64 => simp
  | valuesInt => simp
  | wholes h => rcases h with h | h | h <;> simp [h]

theorem broken_value {number : Nat} {b : Bytes} (h : Broken number b) (v : PValue Nat) : valueField v (number, .block b) = none := by
  rcases broken_number h with rfl | rfl | rfl | rfl
  · simp [valueField, broken_tensor h .float32 (by simp)]
  · simp [valueField, broken_tensor h .float64 (by simp)]
  · simp [valueField, broken_tensor h .int32 (by simp)]
  · cases h with
    | fields _ hb => simp [valueField, wireFields_none hb]
    | wholes h => simp at h

end Mlio
