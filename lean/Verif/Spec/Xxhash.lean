import Verif.Basic

/-!
# XXH32

After the published description of the algorithm: https://github.com/Cyan4973/xxHash/blob/dev/doc/xxhash_spec.md.
-/

namespace Mlio.Spec.XXH32

def PRIME32_1 : UInt32 := 2654435761
def PRIME32_2 : UInt32 := 2246822519
def PRIME32_3 : UInt32 := 3266489917
def PRIME32_4 : UInt32 := 668265263
def PRIME32_5 : UInt32 := 374761393

/-- Rotation to the left by `r` bits. -/
def rotl (x : UInt32) (r : Nat) : UInt32 := ⟨x.toBitVec.rotateLeft r⟩

/-- Little endian. -/
def word (a b c d : UInt8) : UInt32 := ⟨d.toBitVec ++ c.toBitVec ++ b.toBitVec ++ a.toBitVec⟩

/-- "A lane is 32 bits". -/
def lane (acc w : UInt32) : UInt32 := rotl (acc + w * PRIME32_2) 13 * PRIME32_1

/-- Steps 2 and 3: stripes of 16 bytes, as long as there are; then the accumulators converge. -/
def stripes (acc1 acc2 acc3 acc4 : UInt32) : Bytes → UInt32 × Bytes
  | a0 :: a1 :: a2 :: a3 :: b0 :: b1 :: b2 :: b3 :: c0 :: c1 :: c2 :: c3 :: d0 :: d1 :: d2 :: d3 :: rest =>
    stripes (lane acc1 (word a0 a1 a2 a3)) (lane acc2 (word b0 b1 b2 b3)) (lane acc3 (word c0 c1 c2 c3))
      (lane acc4 (word d0 d1 d2 d3)) rest
  | rest => (rotl acc1 1 + rotl acc2 7 + rotl acc3 12 + rotl acc4 18, rest)

/-- Step 5: the remaining input. -/
def remaining (acc : UInt32) : Bytes → UInt32
  | a :: b :: c :: d :: rest => remaining (rotl (acc + word a b c d * PRIME32_3) 17 * PRIME32_4) rest
  | a :: rest => remaining (rotl (acc + UInt32.ofNat a.toNat * PRIME32_5) 11 * PRIME32_1) rest
  | [] => acc

/-- Step 6: final mix. -/
def avalanche (acc : UInt32) : UInt32 :=
  let acc := acc ^^^ (acc >>> 15)
  let acc := acc * PRIME32_2
  let acc := acc ^^^ (acc >>> 13)
  let acc := acc * PRIME32_3
  acc ^^^ (acc >>> 16)

/-- The hash of a text: step 1 (accumulators), step 4 (input length). -/
def hash (seed : UInt32) (text : Bytes) : UInt32 :=
  let start :=
    if text.length < 16 then (seed + PRIME32_5, text)
    else stripes (seed + PRIME32_1 + PRIME32_2) (seed + PRIME32_2) seed (seed - PRIME32_1) text
  avalanche (remaining (start.1 + UInt32.ofNat text.length) start.2)

end Mlio.Spec.XXH32
