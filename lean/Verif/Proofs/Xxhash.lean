import Verif.Model.Xxhash
import Verif.Spec.Xxhash

/-!
# Lemmas about the hash of a text
-/

namespace Mlio
open Spec

theorem rotl32_eq (x : UInt32) (r : Nat) (h : 0 < r ∧ r < 32) : rotl32 x (UInt32.ofNat r) = XXH32.rotl x r := by
  apply UInt32.toBitVec_inj.1
  unfold rotl32 XXH32.rotl
  simp only [UInt32.toBitVec_or, UInt32.toBitVec_shiftLeft, UInt32.toBitVec_shiftRight]
  rw [BitVec.rotateLeft_def, BitVec.shiftLeft_eq', BitVec.ushiftRight_eq']
  have h1 : ((UInt32.ofNat r).toBitVec % 32).toNat = r % 32 := by simp [BitVec.toNat_umod]
  have h2 : ((32 - UInt32.ofNat r).toBitVec % 32).toNat = 32 - r % 32 := by
    have : (UInt32.ofNat r).toNat = r := by simp; omega
    have h3 : (32 - UInt32.ofNat r).toNat = 32 - r := by
      rw [UInt32.toNat_sub_of_le]
      · rw [this]; rfl
      · rw [UInt32.le_iff_toNat_le, this]; show r ≤ 32; omega
    rw [BitVec.toNat_umod, UInt32.toNat_toBitVec, h3]
    show (32 - r) % 32 = _
    omega
  rw [h1, h2]

theorem toNat_word (a b c d : UInt8) :
    (XXH32.word a b c d).toNat = d.toNat <<< 24 ||| c.toNat <<< 16 ||| b.toNat <<< 8 ||| a.toNat := by
  unfold XXH32.word
  show ((d.toBitVec ++ c.toBitVec ++ b.toBitVec ++ a.toBitVec : BitVec (8+8+8+8))).toNat = _
  simp only [BitVec.toNat_append, UInt8.toNat_toBitVec, Nat.shiftLeft_or_distrib, ← Nat.shiftLeft_add]

theorem word_little (a b c d : UInt8) : nativeWord true a b c d = XXH32.word a b c d := by
  apply UInt32.toNat_inj.1
  rw [toNat_word]
  unfold nativeWord
  simp
  have ha := a.toNat_lt
  have hb := b.toNat_lt
  have hc := c.toNat_lt
  have hd := d.toNat_lt
  rw [Nat.mod_eq_of_lt (a := b.toNat <<< 8) (by rw [Nat.shiftLeft_eq]; omega),
    Nat.mod_eq_of_lt (a := c.toNat <<< 16) (by rw [Nat.shiftLeft_eq]; omega),
    Nat.mod_eq_of_lt (a := d.toNat <<< 24) (by rw [Nat.shiftLeft_eq]; omega)]
  generalize b.toNat <<< 8 = x
  generalize c.toNat <<< 16 = y
  generalize d.toNat <<< 24 = z
  generalize a.toNat = w
  ac_rfl

theorem word_big (a b c d : UInt8) : swap32 (nativeWord false a b c d) = XXH32.word a b c d := by
  rw [← word_little]
  unfold swap32 nativeWord
  apply UInt32.toBitVec_inj.1
  simp
  apply BitVec.eq_of_getLsbD_eq
  intro i hi
  simp
  have : i = 0 ∨ i = 1 ∨ i = 2 ∨ i = 3 ∨ i = 4 ∨ i = 5 ∨ i = 6 ∨ i = 7 ∨ i = 8 ∨ i = 9 ∨ i = 10 ∨ i = 11 ∨ i = 12 ∨
    i = 13 ∨ i = 14 ∨ i = 15 ∨ i = 16 ∨ i = 17 ∨ i = 18 ∨ i = 19 ∨ i = 20 ∨ i = 21 ∨ i = 22 ∨ i = 23 ∨ i = 24 ∨
    i = 25 ∨ i = 26 ∨ i = 27 ∨ i = 28 ∨ i = 29 ∨ i = 30 ∨ i = 31 := by omega
  clear hi
  rcases this with h | h | h | h | h | h | h | h | h | h | h | h | h | h | h | h | h | h | h | h | h | h | h | h | h | h | h |
    h | h | h | h | h <;>
    (subst h; simp)

/-- An address where the code may read words. -/
def Readable (aligned : Bool) (addr : Nat) : Prop := aligned = true → addr % 4 = 0

theorem readWord_ok (cfg : XxConfig) (aligned : Bool) (addr : Nat) (text : Bytes) (o : Nat) (a b c d : UInt8)
    (rest : Bytes) (ha : Readable aligned (addr + o)) (h : text.drop o = a :: b :: c :: d :: rest) :
    readWord cfg aligned addr text o = .ok (XXH32.word a b c d) := by
  have g : ∀ i, text[o + i]? = (a :: b :: c :: d :: rest)[i]? := by
    intro i; rw [← h, List.getElem?_drop]
  have g0 : text[o]? = some a := by simpa using g 0
  have g1 : text[o + 1]? = some b := by simpa using g 1
  have g2 : text[o + 2]? = some c := by simpa using g 2
  have g3 : text[o + 3]? = some d := by simpa using g 3
  unfold readWord
  rw [if_neg (by cases aligned <;> simp_all [Readable]), g0, g1, g2, g3]
  cases hl : cfg.little
  · simp [word_big]
  · simp [word_little]

theorem xxAvalanche_eq (h : UInt32) : xxAvalanche h = XXH32.avalanche h := rfl

theorem rotl_1 (x : UInt32) : rotl32 x 1 = XXH32.rotl x 1 := rotl32_eq x 1 (by omega)
theorem rotl_7 (x : UInt32) : rotl32 x 7 = XXH32.rotl x 7 := rotl32_eq x 7 (by omega)
theorem rotl_11 (x : UInt32) : rotl32 x 11 = XXH32.rotl x 11 := rotl32_eq x 11 (by omega)
theorem rotl_12 (x : UInt32) : rotl32 x 12 = XXH32.rotl x 12 := rotl32_eq x 12 (by omega)
theorem rotl_13 (x : UInt32) : rotl32 x 13 = XXH32.rotl x 13 := rotl32_eq x 13 (by omega)
theorem rotl_17 (x : UInt32) : rotl32 x 17 = XXH32.rotl x 17 := rotl32_eq x 17 (by omega)
theorem rotl_18 (x : UInt32) : rotl32 x 18 = XXH32.rotl x 18 := rotl32_eq x 18 (by omega)

theorem xxRound_eq (acc w : UInt32) : xxRound acc w = XXH32.lane acc w := by
  unfold xxRound XXH32.lane
  rw [rotl_13]; rfl

theorem drop_step (text : Bytes) (o : Nat) (xs rest : Bytes) (h : text.drop o = xs ++ rest) :
    text.drop (o + xs.length) = rest := by
  rw [← List.drop_drop, h]; simp

theorem xxOps_p1 (cfg : XxConfig) (aligned : Bool) (addr : Nat) (text : Bytes) :
    ∀ (rest : Bytes) (h : UInt32) (o : Nat), rest.length < 4 → text.drop o = rest →
      xxOps cfg aligned addr text (List.replicate rest.length .p1) h o
        = .ok (XXH32.avalanche (XXH32.remaining h rest)) := by
  intro rest
  induction rest with
  | nil => intro h o _ _; simp [xxOps, XXH32.remaining, xxAvalanche_eq]
  | cons a rest ih =>
    intro h o hl hd
    have g0 : text[o]? = some a := by
      have := List.getElem?_drop (xs := text) (i := o) (j := 0)
      rw [hd] at this; simpa using this.symm
    rw [List.length_cons, List.replicate_succ, xxOps, g0]
    simp only
    rw [ih _ _ (by simp at hl; omega) (by simpa using drop_step text o [a] rest (by simpa using hd)), rotl_11]
    have hr : ∀ acc : UInt32, XXH32.remaining acc (a :: rest)
        = XXH32.remaining (XXH32.rotl (acc + UInt32.ofNat a.toNat * XXH32.PRIME32_5) 11 * XXH32.PRIME32_1) rest := by
      intro acc
      match rest, hl with
      | [], _ => simp only [XXH32.remaining]
      | [_], _ => simp only [XXH32.remaining]
      | [_, _], _ => simp only [XXH32.remaining]
      | _ :: _ :: _ :: _, hl => simp at hl; omega
    rw [hr]
    have : a.toUInt32 = UInt32.ofNat a.toNat := by apply UInt32.toNat_inj.1; simp
    rw [this]; rfl

theorem xxOps_eq (cfg : XxConfig) (aligned : Bool) (addr : Nat) (text : Bytes) :
    ∀ (k : Nat) (rest : Bytes) (h : UInt32) (o : Nat), rest.length / 4 = k → text.drop o = rest →
      Readable aligned (addr + o) →
      xxOps cfg aligned addr text (List.replicate k .p4 ++ List.replicate (rest.length % 4) .p1) h o
        = .ok (XXH32.avalanche (XXH32.remaining h rest)) := by
  intro k
  induction k with
  | zero =>
    intro rest h o hk hd _
    have hl : rest.length < 4 := by omega
    rw [Nat.mod_eq_of_lt hl]
    exact xxOps_p1 cfg aligned addr text rest h o hl hd
  | succ k ih =>
    intro rest h o hk hd ha
    match rest, hk with
    | [], hk => simp at hk
    | [_], hk => simp at hk
    | [_, _], hk => simp at hk
    | [_, _, _], hk => simp at hk
    | a :: b :: c :: d :: rest, hk =>
      rw [List.replicate_succ, List.cons_append, xxOps, readWord_ok cfg aligned addr text o a b c d rest ha hd]
      simp only
      have hm : (a :: b :: c :: d :: rest).length % 4 = rest.length % 4 := by simp only [List.length_cons]; omega
      rw [hm, ih rest _ (o + 4) (by simp at hk; omega) (by simpa using drop_step text o [a, b, c, d] rest (by simpa using hd))
        (by intro h; have := ha h; omega), rotl_17, XXH32.remaining]
      rfl

theorem switched_eq (len : Nat) : switched len = rerolled len := by
  unfold switched rerolled
  have h : len % 16 < 16 := Nat.mod_lt _ (by omega)
  generalize len % 16 = n at h ⊢
  have : n = 0 ∨ n = 1 ∨ n = 2 ∨ n = 3 ∨ n = 4 ∨ n = 5 ∨ n = 6 ∨ n = 7 ∨ n = 8 ∨ n = 9 ∨ n = 10 ∨ n = 11 ∨ n = 12 ∨
    n = 13 ∨ n = 14 ∨ n = 15 := by omega
  rcases this with h | h | h | h | h | h | h | h | h | h | h | h | h | h | h | h <;> (subst h; rfl)

theorem xxFinalize_eq (cfg : XxConfig) (aligned : Bool) (addr : Nat) (text : Bytes) (h : UInt32) (o : Nat)
    (rest : Bytes) (hd : text.drop o = rest) (hr : rest.length < 16) (ho : o % 16 = 0) (hle : o ≤ text.length)
    (ha : Readable aligned addr) :
    xxFinalize cfg aligned addr text h o text.length = .ok (XXH32.avalanche (XXH32.remaining h rest)) := by
  have hlen : text.length % 16 = rest.length := by
    have : rest.length = text.length - o := by rw [← hd]; simp
    omega
  unfold xxFinalize
  have hops : (if cfg.reroll = true then rerolled text.length else switched text.length)
      = List.replicate (rest.length / 4) .p4 ++ List.replicate (rest.length % 4) .p1 := by
    rw [switched_eq, ite_self]
    unfold rerolled
    rw [hlen]
  rw [hops]
  exact xxOps_eq cfg aligned addr text _ rest h o rfl hd (by intro h; have := ha h; omega)

/-- The accumulators converge. -/
def converge (v : XxLanes) : UInt32 := rotl32 v.v1 1 + rotl32 v.v2 7 + rotl32 v.v3 12 + rotl32 v.v4 18

theorem stripes_short (a b c d : UInt32) (rest : Bytes) (h : rest.length < 16) :
    XXH32.stripes a b c d rest = (converge ⟨a, b, c, d⟩, rest) := by
  unfold XXH32.stripes
  split
  · simp at h; omega
  · simp [converge, rotl_1, rotl_7, rotl_12, rotl_18]

theorem long_cases (rest : Bytes) (h : 16 ≤ rest.length) : ∃ a0 a1 a2 a3 b0 b1 b2 b3 c0 c1 c2 c3 d0 d1 d2 d3 r,
    rest = a0 :: a1 :: a2 :: a3 :: b0 :: b1 :: b2 :: b3 :: c0 :: c1 :: c2 :: c3 :: d0 :: d1 :: d2 :: d3 :: r := by
  match rest, h with
  | a0 :: a1 :: a2 :: a3 :: b0 :: b1 :: b2 :: b3 :: c0 :: c1 :: c2 :: c3 :: d0 :: d1 :: d2 :: d3 :: r, _ =>
    exact ⟨a0, a1, a2, a3, b0, b1, b2, b3, c0, c1, c2, c3, d0, d1, d2, d3, r, rfl⟩

theorem xxLoop_eq (cfg : XxConfig) (aligned : Bool) (addr : Nat) (text : Bytes) :
    ∀ (fuel : Nat) (v : XxLanes) (o : Nat) (rest : Bytes), text.drop o = rest → 16 ≤ rest.length →
      rest.length ≤ fuel → o % 16 = 0 → Readable aligned addr →
      ∃ v' o', xxLoop cfg aligned addr text fuel v o = .ok (v', o') ∧ o' % 16 = 0 ∧ o' ≤ text.length ∧
        (text.drop o').length < 16 ∧ XXH32.stripes v.v1 v.v2 v.v3 v.v4 rest = (converge v', text.drop o') := by
  intro fuel
  induction fuel with
  | zero => intro v o rest _ h1 h2; omega
  | succ fuel ih =>
    intro v o rest hd hl hf ho ha
    obtain ⟨a0, a1, a2, a3, b0, b1, b2, b3, c0, c1, c2, c3, d0, d1, d2, d3, r, rfl⟩ := long_cases rest hl
    have e1 := drop_step text o [a0, a1, a2, a3] _ (by simpa using hd)
    have e2 := drop_step text o [a0, a1, a2, a3, b0, b1, b2, b3] _ (by simpa using hd)
    have e3 := drop_step text o [a0, a1, a2, a3, b0, b1, b2, b3, c0, c1, c2, c3] _ (by simpa using hd)
    have e4 := drop_step text o [a0, a1, a2, a3, b0, b1, b2, b3, c0, c1, c2, c3, d0, d1, d2, d3] r (by simpa using hd)
    simp only [List.length_cons, List.length_nil, Nat.zero_add, Nat.reduceAdd] at e1 e2 e3 e4
    have w0 := readWord_ok cfg aligned addr text o _ _ _ _ _ (by intro h; have := ha h; omega) hd
    have w1 := readWord_ok cfg aligned addr text (o + 4) _ _ _ _ _ (by intro h; have := ha h; omega) e1
    have w2 := readWord_ok cfg aligned addr text (o + 8) _ _ _ _ _ (by intro h; have := ha h; omega) e2
    have w3 := readWord_ok cfg aligned addr text (o + 12) _ _ _ _ _ (by intro h; have := ha h; omega) e3
    have hlen : text.length - o = r.length + 16 := by
      have := congrArg List.length hd
      simpa using this
    have hrl : (text.drop (o + 16)).length = r.length := by rw [e4]
    rw [xxLoop, w0, w1, w2, w3]
    simp only
    rw [XXH32.stripes]
    by_cases hc : o + 16 < text.length - 15
    · rw [if_pos hc]
      obtain ⟨v', o', h1, h2, h3, h4, h5⟩ := ih
        ⟨xxRound v.v1 (XXH32.word a0 a1 a2 a3), xxRound v.v2 (XXH32.word b0 b1 b2 b3),
          xxRound v.v3 (XXH32.word c0 c1 c2 c3), xxRound v.v4 (XXH32.word d0 d1 d2 d3)⟩ (o + 16) r e4
        (by omega) (by simp at hf; omega) (by omega) ha
      refine ⟨v', o', h1, h2, h3, h4, ?_⟩
      simpa [xxRound_eq] using h5
    · rw [if_neg hc]
      refine ⟨_, _, rfl, by omega, by omega, by omega, ?_⟩
      rw [stripes_short _ _ _ _ r (by omega), e4]
      simp [xxRound_eq]

theorem xxEndianAlign_eq (cfg : XxConfig) (aligned : Bool) (addr : Nat) (text : Bytes) (seed : UInt32)
    (ha : Readable aligned addr) :
    xxEndianAlign cfg aligned addr text seed = .ok (XXH32.hash seed text) := by
  unfold xxEndianAlign XXH32.hash
  by_cases h : 16 ≤ text.length
  · obtain ⟨v', o', h1, h2, h3, h4, h5⟩ := xxLoop_eq cfg aligned addr text text.length
      ⟨seed + prime1 + prime2, seed + prime2, seed + 0, seed - prime1⟩ 0 text rfl h (Nat.le_refl _) rfl ha
    rw [if_pos h, h1, if_neg (by omega)]
    simp only
    have h5' : XXH32.stripes (seed + XXH32.PRIME32_1 + XXH32.PRIME32_2) (seed + XXH32.PRIME32_2) seed
        (seed - XXH32.PRIME32_1) text = (converge v', text.drop o') := by
      rw [← h5]; simp only [UInt32.add_zero]; rfl
    rw [h5']
    exact xxFinalize_eq cfg aligned addr text _ o' _ rfl h4 h2 h3 ha
  · rw [if_neg h, if_pos (by omega)]
    exact xxFinalize_eq cfg aligned addr text _ 0 text rfl (by omega) rfl (by omega) ha

theorem xxh32_eq (cfg : XxConfig) (addr : Nat) (text : Bytes) (seed : UInt32) :
    xxh32 cfg addr text seed = .ok (XXH32.hash seed text) := by
  unfold xxh32
  split
  · next h => exact xxEndianAlign_eq cfg true addr text seed (by intro _; simp at h; omega)
  · exact xxEndianAlign_eq cfg false addr text seed (by intro h; cases h)

end Mlio
