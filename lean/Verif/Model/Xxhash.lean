import Verif.Model.Hll

/-!
# The hash of a text

`src/mlio-py/mlio/contrib/insights/hll/xxhash.c` 200-591, as far as `XXH32` of a text needs it.  The code is compiled in
several variants: for little and big endian machines, with a test for aligned texts or without
(`XXH_FORCE_ALIGN_CHECK`), with loops or with a `switch` (`XXH_REROLL`).  A text is `text`, at address `addr`; reading
outside of it, or reading an aligned word at another address, is undefined.
-/

namespace Mlio

/-- The variant: `XXH_CPU_LITTLE_ENDIAN`, `XXH_FORCE_ALIGN_CHECK`, `XXH_REROLL`, `xxhash.c` 82-109, 243-269. -/
structure XxConfig where
  little : Bool
  alignCheck : Bool
  reroll : Bool
  deriving DecidableEq, Repr

/-- `PRIME32_1` to `PRIME32_5`, `xxhash.c` 347-358. -/
def prime1 : UInt32 := 0x9E3779B1
/-- See `prime1`. -/
def prime2 : UInt32 := 0x85EBCA77
/-- See `prime1`. -/
def prime3 : UInt32 := 0xC2B2AE3D
/-- See `prime1`. -/
def prime4 : UInt32 := 0x27D4EB2F
/-- See `prime1`. -/
def prime5 : UInt32 := 0x165667B1

/-- `XXH_rotl32`, `xxhash.c` 279-291. -/
def rotl32 (x r : UInt32) : UInt32 := (x <<< r) ||| (x >>> (32 - r))

/-- `XXH_swap32`, `xxhash.c` 293-304. -/
def swap32 (x : UInt32) : UInt32 :=
  ((x <<< (24 : UInt32)) &&& (0xff000000 : UInt32)) ||| ((x <<< (8 : UInt32)) &&& (0x00ff0000 : UInt32)) |||
    ((x >>> (8 : UInt32)) &&& (0x0000ff00 : UInt32)) ||| ((x >>> (24 : UInt32)) &&& (0x000000ff : UInt32))

/-- `XXH_read32`, `xxhash.c` 203-240: the word as the machine reads it. -/
def nativeWord (little : Bool) (a b c d : UInt8) : UInt32 :=
  if little then a.toUInt32 ||| (b.toUInt32 <<< 8) ||| (c.toUInt32 <<< 16) ||| (d.toUInt32 <<< 24)
  else d.toUInt32 ||| (c.toUInt32 <<< 8) ||| (b.toUInt32 <<< 16) ||| (a.toUInt32 <<< 24)

/-- `XXH_readLE32_align`, `xxhash.c` 311-336, at offset `o` of the text. -/
def readWord (cfg : XxConfig) (aligned : Bool) (addr : Nat) (text : Bytes) (o : Nat) : Res UInt32 :=
  if aligned && (addr + o) % 4 ≠ 0 then .ub "unaligned access"
  else match text[o]?, text[o + 1]?, text[o + 2]?, text[o + 3]? with
    | some a, some b, some c, some d =>
      .ok (if cfg.little then nativeWord cfg.little a b c d else swap32 (nativeWord cfg.little a b c d))
    | _, _, _, _ => .ub "out of bounds"

/-- `XXH32_round`, `xxhash.c` 360-414. -/
def xxRound (acc input : UInt32) : UInt32 := rotl32 (acc + input * prime2) 13 * prime1

/-- `XXH32_avalanche`, `xxhash.c` 417-427. -/
def xxAvalanche (h : UInt32) : UInt32 :=
  let h := h ^^^ (h >>> 15)
  let h := h * prime2
  let h := h ^^^ (h >>> 13)
  let h := h * prime3
  h ^^^ (h >>> 16)

/-- What `XXH32_finalize` does with the rest of the text, `xxhash.c` 434-441: `PROCESS4` and `PROCESS1`. -/
inductive XxOp where
  | p4
  | p1
  deriving DecidableEq, Repr

/-- `PROCESS4` and `PROCESS1` one after another, with `h32` and `ptr`. -/
def xxOps (cfg : XxConfig) (aligned : Bool) (addr : Nat) (text : Bytes) : List XxOp → UInt32 → Nat → Res UInt32
  | [], h, _ => .ok (xxAvalanche h)
  | .p4 :: ops, h, o =>
    match readWord cfg aligned addr text o with
    | .ok w => xxOps cfg aligned addr text ops (rotl32 (h + w * prime3) 17 * prime4) (o + 4)
    | .err e => .err e
    | .ub u => .ub u
  | .p1 :: ops, h, o =>
    match text[o]? with
    | some b => xxOps cfg aligned addr text ops (rotl32 (h + b.toUInt32 * prime5) 11 * prime1) (o + 1)
    | none => .ub "out of bounds"

/-- The two loops, `xxhash.c` 444-455: while there are four bytes, and while there is one. -/
def rerolled (len : Nat) : List XxOp := List.replicate (len % 16 / 4) .p4 ++ List.replicate (len % 16 % 4) .p1

/-- The `switch`, `xxhash.c` 456-513, with its cases from the bottom up; a case falls through to the next one. -/
def switched (len : Nat) : List XxOp :=
  let c0 := []
  let c1 := .p1 :: c0
  let c2 := .p1 :: c1
  let c3 := .p1 :: c2
  let c7 := .p4 :: c3
  let c11 := .p4 :: c7
  let c15 := .p4 :: c11
  let c6 := [.p4, .p1, .p1]
  let c10 := .p4 :: c6
  let c14 := .p4 :: c10
  let c5 := [.p4, .p1]
  let c9 := .p4 :: c5
  let c13 := .p4 :: c9
  let c4 := [.p4]
  let c8 := .p4 :: c4
  let c12 := .p4 :: c8
  [c0, c1, c2, c3, c4, c5, c6, c7, c8, c9, c10, c11, c12, c13, c14, c15].getD (len % 16) []

/-- `XXH32_finalize`, `xxhash.c` 431-515. -/
def xxFinalize (cfg : XxConfig) (aligned : Bool) (addr : Nat) (text : Bytes) (h : UInt32) (o len : Nat) : Res UInt32 :=
  xxOps cfg aligned addr text (if cfg.reroll then rerolled len else switched len) h o

/-- The four accumulators. -/
structure XxLanes where
  v1 : UInt32
  v2 : UInt32
  v3 : UInt32
  v4 : UInt32
  deriving DecidableEq, Repr

/-- The loop of `XXH32_endian_align`, `xxhash.c` 541-550: `input < limit`, where `limit` is `bEnd - 15`.  The loop is
bounded by `fuel`. -/
def xxLoop (cfg : XxConfig) (aligned : Bool) (addr : Nat) (text : Bytes) : (fuel : Nat) → XxLanes → Nat →
    Res (XxLanes × Nat)
  | 0, _, _ => .err .diverges
  | fuel + 1, v, o =>
    match readWord cfg aligned addr text o, readWord cfg aligned addr text (o + 4),
        readWord cfg aligned addr text (o + 8), readWord cfg aligned addr text (o + 12) with
    | .ok a, .ok b, .ok c, .ok d =>
      let v := ⟨xxRound v.v1 a, xxRound v.v2 b, xxRound v.v3 c, xxRound v.v4 d⟩
      if o + 16 < text.length - 15 then xxLoop cfg aligned addr text fuel v (o + 16) else .ok (v, o + 16)
    | .ub u, _, _, _ => .ub u
    | _, .ub u, _, _ => .ub u
    | _, _, .ub u, _ => .ub u
    | _, _, _, .ub u => .ub u
    | _, _, _, _ => .err .diverges

/-- `XXH32_endian_align`, `xxhash.c` 517-561. -/
def xxEndianAlign (cfg : XxConfig) (aligned : Bool) (addr : Nat) (text : Bytes) (seed : UInt32) : Res UInt32 :=
  if text.length ≥ 16 then
    match xxLoop cfg aligned addr text text.length
        ⟨seed + prime1 + prime2, seed + prime2, seed + 0, seed - prime1⟩ 0 with
    | .ok (v, o) =>
      xxFinalize cfg aligned addr text
        (rotl32 v.v1 1 + rotl32 v.v2 7 + rotl32 v.v3 12 + rotl32 v.v4 18 + UInt32.ofNat text.length) o text.length
    | .err e => .err e
    | .ub u => .ub u
  else xxFinalize cfg aligned addr text (seed + prime5 + UInt32.ofNat text.length) 0 text.length

/-- `XXH32`, `xxhash.c` 563-591. -/
def xxh32 (cfg : XxConfig) (addr : Nat) (text : Bytes) (seed : UInt32) : Res UInt32 :=
  if cfg.alignCheck && addr % 4 == 0 then xxEndianAlign cfg true addr text seed
  else xxEndianAlign cfg false addr text seed

/-- `HyperLogLog::add`, `hyperloglog.cc` 59-73, of a text at address `addr`; `HLL_HASH_SEED` is zero (`hyperloglog.h` 71). -/
def Hll.addText (cfg : XxConfig) (builtin : Bool) (s : Hll) (addr : Nat) (text : Bytes) : Res Hll :=
  match xxh32 cfg addr text 0 with
  | .ok h => s.add builtin h.toNat
  | .err e => .err e
  | .ub u => .ub u

/-- Texts one after another, each at its address. -/
def Hll.addTexts (cfg : XxConfig) (builtin : Bool) (s : Hll) : List (Nat × Bytes) → Res Hll
  | [] => .ok s
  | (addr, text) :: rest => match s.addText cfg builtin addr text with
    | .ok s' => s'.addTexts cfg builtin rest
    | .err e => .err e
    | .ub w => .ub w

end Mlio
