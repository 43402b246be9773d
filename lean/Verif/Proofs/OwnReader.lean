import Verif.Proofs.Poke

namespace Mlio
open Spec

/-- The reader without places. -/
structure OwnRel (z : OwnReader) (st : MemReader) : Prop where
  pending : st.pending = if z.pending then z.mem else []
  chunk : st.chunk = z.mem.drop z.start
  fresh : z.pending = true → z.mem ≠ []

/-- The result without the place. -/
def unplaced : Res (Option (Record × Nat)) → Res (Option Record)
  | .ok p => .ok (p.map Prod.fst)
  | .err e => .err e
  | .ub w => .ub w

theorem suffix_drop {rest x : Bytes} (h : rest <:+ x) : x.drop (x.length - rest.length) = rest := by
  obtain ⟨p, rfl⟩ := h
  simp

theorem own_readCore (dec : Bytes → Bool → Dec Record) (off : Bytes → Bool → Nat) (hd : Located dec off) :
    ∀ (fuel : Nat) (z : OwnReader) (st : MemReader), OwnRel z st →
    unplaced (z.readCore dec off fuel).1 = (st.readCore dec fuel).1 ∧
    OwnRel (z.readCore dec off fuel).2 (st.readCore dec fuel).2
  | 0, z, st, h => ⟨rfl, h⟩
  | fuel + 1, z, st, h => by
    unfold OwnReader.readCore MemReader.readCore
    have hpe : (!st.pending.isEmpty) = z.pending := by
      rw [h.pending]
      by_cases hp : z.pending = true
      · rw [if_pos hp, hp]
        have := h.fresh hp
        cases hm : z.mem <;> simp_all
      · simp [hp]
    have hsuf : z.mem.drop z.start <:+ z.mem := List.drop_suffix _ _
    rw [hpe, h.chunk]
    cases hdx : dec (z.mem.drop z.start) z.pending with
    | ub w => exact ⟨rfl, h⟩
    | fail e rest =>
      refine ⟨rfl, h.pending, ?_, h.fresh⟩
      simp only
      rw [suffix_drop ((hd.fail _ _ _ _ hdx).trans hsuf)]
    | got r rest =>
      refine ⟨rfl, h.pending, ?_, h.fresh⟩
      simp only
      rw [suffix_drop ((hd.got _ _ _ _ hdx).1.trans hsuf)]
    | more rest k =>
      simp only
      by_cases hp : z.pending = true
      · have hne : st.pending.isEmpty = false := by rw [hp] at hpe; simpa using hpe
        rw [if_pos hp, hne]
        simp only [Bool.false_eq_true, if_false]
        refine own_readCore dec off hd fuel _ _ ⟨by simp, ?_, by simp⟩
        simp [h.pending, hp]
      · have hne : st.pending.isEmpty = true := by
          have : z.pending = false := by simpa using hp
          rw [this] at hpe
          simpa using hpe
        rw [if_neg hp, if_pos hne]
        refine ⟨rfl, ?_, ?_, h.fresh⟩
        · simp [hp]
        · simpa using hne

theorem own_readN (dec : Bytes → Bool → Dec Record) (off : Bytes → Bool → Nat) (hd : Located dec off) :
    ∀ (n : Nat) (z : OwnReader) (st : MemReader), OwnRel z st → (z.readN dec off n).1 = st.readN dec n
  | 0, _, _, _ => rfl
  | n + 1, z, st, h => by
    obtain ⟨h1, h2⟩ := own_readCore dec off hd 3 z st h
    have ih := own_readN dec off hd n _ _ h2
    simp only [OwnReader.readN, MemReader.readN, OwnReader.read, MemReader.read]
    rw [← h1, ih]
    rfl

theorem own_open (mem : Bytes) : OwnRel (.open mem) ⟨mem, []⟩ := by
  refine ⟨?_, by simp [OwnReader.open], ?_⟩
  · cases mem <;> simp [OwnReader.open]
  · intro h
    simp [OwnReader.open] at h
    exact h

/-! ## Writes into records read before -/

/-- Before the chunk is handed out nothing has been read from it. -/
def OwnReader.Ok (z : OwnReader) : Prop := z.start ≤ z.mem.length ∧ (z.pending = true → z.start = z.mem.length)

/-- One call: the memory is as before, the reader goes forward, and the payload is between the old start (or the start
of the memory) and the new one. -/
theorem own_step (dec : Bytes → Bool → Dec Record) (off : Bytes → Bool → Nat) (hd : Located dec off) :
    ∀ (fuel : Nat) (z : OwnReader), z.Ok →
    (z.readCore dec off fuel).2.mem = z.mem ∧ (z.readCore dec off fuel).2.Ok ∧
    (z.pending = false → z.start ≤ (z.readCore dec off fuel).2.start ∧ (z.readCore dec off fuel).2.pending = false) ∧
    (∀ r a, (z.readCore dec off fuel).1 = .ok (some (r, a)) → (z.readCore dec off fuel).2.pending = false ∧
      a + r.payload.length ≤ (z.readCore dec off fuel).2.start ∧ (z.mem.drop a).take r.payload.length = r.payload)
  | 0, z, h => ⟨rfl, h, fun hp => ⟨Nat.le_refl _, hp⟩, fun r a hr => by cases hr⟩
  | fuel + 1, z, h => by
    unfold OwnReader.readCore
    have hlen : (z.mem.drop z.start).length = z.mem.length - z.start := List.length_drop
    have h1 := h.1
    have hempty : z.pending = true → z.mem.drop z.start = [] := by
      intro hp
      rw [h.2 hp, List.drop_length]
    cases hdx : dec (z.mem.drop z.start) z.pending with
    | ub w => exact ⟨rfl, h, fun hp => ⟨Nat.le_refl _, hp⟩, fun r a hr => by cases hr⟩
    | fail e rest =>
      have := (hd.fail _ _ _ _ hdx).length_le
      refine ⟨rfl, ⟨by simp only; omega, fun hp => ?_⟩, fun hp => ⟨by simp only; omega, hp⟩, fun r a hr => by cases hr⟩
      rw [hempty hp] at this
      simp only [List.length_nil] at this
      simp only
      omega
    | got r rest =>
      obtain ⟨g1, g2, g3, g4⟩ := hd.got _ _ _ _ hdx
      have hpf : z.pending = false := by
        cases hp : z.pending with
        | false => rfl
        | true => rw [hempty hp] at g2; simp at g2
      refine ⟨rfl, ⟨by simp only; omega, fun hp => ?_⟩, fun hp => ⟨by simp only; omega, hp⟩, fun r' a hr => ?_⟩
      · simp only [hpf] at hp
        cases hp
      · cases hr
        refine ⟨hpf, ?_, ?_⟩
        · simp only
          omega
        · rw [← List.drop_drop]
          exact g4
    | more rest k =>
      simp only
      by_cases hp : z.pending = true
      · rw [if_pos hp]
        obtain ⟨i1, i2, i3, i4⟩ := own_step dec off hd fuel { z with pending := false, start := 0 }
          ⟨Nat.zero_le _, fun hq => by cases hq⟩
        exact ⟨i1, i2, fun hq => (by rw [hp] at hq; cases hq), i4⟩
      · rw [if_neg hp]
        have hpf : z.pending = false := by simpa using hp
        exact ⟨rfl, ⟨Nat.le_refl _, fun _ => rfl⟩, fun hq => ⟨h.1, hpf⟩, fun r a hr => by cases hr⟩

theorem own_stepN (dec : Bytes → Bool → Dec Record) (off : Bytes → Bool → Nat) (hd : Located dec off) :
    ∀ (n : Nat) (z : OwnReader), z.Ok →
    (z.readN dec off n).2.mem = z.mem ∧ (z.readN dec off n).2.Ok ∧
    (z.pending = false → z.start ≤ (z.readN dec off n).2.start ∧ (z.readN dec off n).2.pending = false)
  | 0, z, h => ⟨rfl, h, fun hp => ⟨Nat.le_refl _, hp⟩⟩
  | n + 1, z, h => by
    obtain ⟨h1, h2, h3, _⟩ := own_step dec off hd 3 z h
    obtain ⟨i1, i2, i3⟩ := own_stepN dec off hd n _ h2
    simp only [OwnReader.readN, OwnReader.read]
    refine ⟨i1.trans h1, i2, fun hp => ?_⟩
    obtain ⟨a1, a2⟩ := h3 hp
    obtain ⟨b1, b2⟩ := i3 a2
    exact ⟨Nat.le_trans a1 b1, b2⟩

/-- A write before the start of the chunk is not seen by the reader. -/
theorem own_poked (dec : Bytes → Bool → Dec Record) (off : Bytes → Bool → Nat) (hd : Located dec off) (n : Nat)
    (z z' : OwnReader) (hp : z.pending = false) (hp' : z'.pending = false)
    (hd' : z'.mem.drop z'.start = z.mem.drop z.start) : (z'.readN dec off n).1 = (z.readN dec off n).1 := by
  rw [own_readN dec off hd n z ⟨[], z.mem.drop z.start⟩ ⟨by simp [hp], rfl, by simp [hp]⟩,
    own_readN dec off hd n z' ⟨[], z.mem.drop z.start⟩ ⟨by simp [hp'], hd'.symm, by simp [hp']⟩]

end Mlio
