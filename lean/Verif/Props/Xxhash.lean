import Verif.Proofs.Xxhash
import Verif.Props.Hll

/-!
# C99: distinct texts are counted by their XXH32 hashes
-/

namespace Mlio
open Spec

/-- C99: the hash of a text is XXH32, as published, in every variant of the code and at every address; the code reads
only bytes of the text, and words only at addresses where it may. -/
theorem C99_hash (cfg : XxConfig) (addr : Nat) (text : Bytes) (seed : UInt32) :
    xxh32 cfg addr text seed = .ok (XXH32.hash seed text) := xxh32_eq cfg addr text seed

/-- Values from the published description of the algorithm and its test suite. -/
example : XXH32.hash 0 [] = 0x02CC5D05 ∧ XXH32.hash 0 "abc".toUTF8.toList = 0x32D153FF ∧
    XXH32.hash 0 "Nobody inspects the spammish repetition".toUTF8.toList = 0xE2293B2F := by decide +kernel

/-- An odd address, on a big endian machine; a multiple of four, with the test for aligned texts. -/
example : xxh32 ⟨false, false, false⟩ 1001 "Nobody inspects the spammish repetition".toUTF8.toList 0 = .ok 0xE2293B2F ∧
    xxh32 ⟨true, true, true⟩ 1000 "Nobody inspects the spammish repetition".toUTF8.toList 0 = .ok 0xE2293B2F := by
  decide +kernel

theorem addTexts_eq (cfg : XxConfig) (builtin : Bool) : ∀ (texts : List (Nat × Bytes)) (s : Hll),
    s.addTexts cfg builtin texts = s.addAll builtin (texts.map (fun t => (XXH32.hash 0 t.2).toNat)) := by
  intro texts
  induction texts with
  | nil => intro s; rfl
  | cons t rest ih =>
    intro s
    obtain ⟨addr, text⟩ := t
    rw [Hll.addTexts, Hll.addText, C99_hash]
    simp only [List.map_cons, Hll.addAll]
    cases s.add builtin (XXH32.hash 0 text).toNat <;> simp [ih]

/-- Texts whose hashes have a bit set after the bucket. -/
def HashesEnd (b : Nat) (texts : List Bytes) : Prop := ∀ t ∈ texts, (XXH32.hash 0 t).toNat % 2 ^ (32 - b) ≠ 0

/-- C99: an estimator holds the sketch of the hashes of the texts that were added, no matter where they were in memory.
With `__builtin_clz` this does not hold for texts whose hash has only zeros after the bucket. -/
theorem C99_sketch_partial (cfg : XxConfig) (builtin : Bool) (b : Nat) (hb : HllWidth b) (texts : List (Nat × Bytes))
    (hh : builtin = true → HashesEnd b (texts.map Prod.snd)) :
    ∃ s0 s, Hll.new b = .ok s0 ∧ s0.addTexts cfg builtin texts = .ok s ∧
      IsSketch b (fun h => ∃ text ∈ texts.map Prod.snd, h = (XXH32.hash 0 text).toNat) s := by
  have hs : Hashes builtin b (texts.map (fun t => (XXH32.hash 0 t.2).toNat)) := by
    intro h hm
    obtain ⟨t, ht, rfl⟩ := List.mem_map.1 hm
    exact ⟨UInt32.toNat_lt _, fun e => hh e t.2 (List.mem_map_of_mem ht)⟩
  obtain ⟨s0, s, h0, h1, h2⟩ := C53_sketch_partial builtin b hb _ hs
  refine ⟨s0, s, h0, by rw [addTexts_eq]; exact h1, isSketch_congr h2 ?_⟩
  intro x
  simp only [List.mem_map]
  constructor
  · rintro ⟨t, ht, rfl⟩; exact ⟨t.2, ⟨t, ht, rfl⟩, rfl⟩
  · rintro ⟨_, ⟨t, ht, rfl⟩, rfl⟩; exact ⟨t, ht, rfl⟩

/-- C99: two machines that add the same set of texts, in whatever order and however often, have the same sketch. -/
theorem C99_set (cfg cfg' : XxConfig) (builtin builtin' : Bool) (b : Nat) (hb : HllWidth b)
    (texts texts' : List (Nat × Bytes)) (hset : ∀ t, t ∈ texts.map Prod.snd ↔ t ∈ texts'.map Prod.snd)
    (hh : HashesEnd b (texts.map Prod.snd)) (s0 : Hll) (hnew : Hll.new b = .ok s0) :
    ∃ s, s0.addTexts cfg builtin texts = .ok s ∧ s0.addTexts cfg' builtin' texts' = .ok s := by
  obtain ⟨s0', s, e0, e, k⟩ := C99_sketch_partial cfg builtin b hb texts (fun _ => hh)
  obtain ⟨s0'', s', e0', e', k'⟩ := C99_sketch_partial cfg' builtin' b hb texts'
    (fun _ t ht => hh t ((hset t).2 ht))
  rw [hnew] at e0 e0'
  cases e0; cases e0'
  have := sketch_unique hb k (isSketch_congr k' (fun x => by simp only [hset]))
  exact ⟨s, e, by rw [this]; exact e'⟩

example : HashesEnd 16 ["abc".toUTF8.toList, []] := by
  intro t ht
  simp only [List.mem_cons, List.not_mem_nil, or_false] at ht
  rcases ht with rfl | rfl <;> decide +kernel

/-- C99 fails in the usual build (`__builtin_clz`, estimators of width 16): a column with the cell "crqaa" has undefined
behaviour, whatever was added before. -/
theorem C99_clz_violated (cfg : XxConfig) (addr : Nat) (s : Hll) (hs : s.b = 16) :
    s.addText cfg true addr "crqaa".toUTF8.toList = .ub "__builtin_clz(0)" := by
  have h : XXH32.hash 0 "crqaa".toUTF8.toList = 0x13F00000 := by decide +kernel
  have hz : getClz true ((0x13F00000 : UInt32).toNat * 2 ^ 16 % 2 ^ 32) (32 - 16) = .ub "__builtin_clz(0)" := by
    decide +kernel
  rw [Hll.addText, C99_hash, h]
  simp only [Hll.add, hs, hz]

/-- Other texts of that kind. -/
example : (XXH32.hash 0 "zdjfa".toUTF8.toList).toNat % 2 ^ 16 = 0 ∧
    (XXH32.hash 0 "qgbja".toUTF8.toList).toNat % 2 ^ 16 = 0 := by decide +kernel

end Mlio
