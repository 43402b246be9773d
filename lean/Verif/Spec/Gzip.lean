import Verif.Model.Gzip

/-!
# What inflating streams is meant to do
-/

namespace Mlio.Spec

/-- The rest of a member of a gzip file, from the given state, with its contents. -/
inductive MemberFrom (z : Inflater) : z.σ → Bytes → Bytes → Prop
  | last (s : z.σ) (b : UInt8) : z.feed s b = .last → MemberFrom z s [b] []
  | more (s s' : z.σ) (b : UInt8) (bs out text : Bytes) : z.feed s b = .more out s' → MemberFrom z s' bs text →
      MemberFrom z s (b :: bs) (out ++ text)

/-- A gzip file with its contents: members (compressed and plain) one after another. -/
def GzFile (z : Inflater) (ms : List (Bytes × Bytes)) (all contents : Bytes) : Prop :=
  (∀ m ∈ ms, MemberFrom z z.init m.1 m.2) ∧ all = (ms.map (·.1)).flatten ∧ contents = (ms.map (·.2)).flatten

/-- The bytes a read gives. -/
def given : Res (Nat × Bytes) → Bytes
  | .ok (_, b) => b
  | _ => []

/-- Successive reads of `ns` bytes until the contents end: the next bytes each time, none only at the end. -/
inductive FullReads : (contents : Bytes) → List Nat → List (Res (Nat × Bytes)) → Prop
  | nil (text : Bytes) : FullReads text [] []
  | more (x text : Bytes) (n : Nat) (ns : List Nat) (os : List (Res (Nat × Bytes))) : x ≠ [] → x.length ≤ n →
      FullReads text ns os → FullReads (x ++ text) (n :: ns) (.ok (x.length, x) :: os)
  | done (n : Nat) (ns : List Nat) (os : List (Res (Nat × Bytes))) :
      FullReads [] ns os → FullReads [] (n :: ns) (.ok (0, []) :: os)

/-- The contents of compressed bytes, from a state on. -/
def unzip (z : Inflater) : z.σ → Bytes → Bytes
  | _, [] => []
  | s, b :: bs =>
    match z.feed s b with
    | .bad => []
    | .last => unzip z z.init bs
    | .more out s' => out ++ unzip z s' bs

/-- Where one is after compressed bytes: the state, and whether a member has just ended. -/
def after (z : Inflater) : z.σ → Bool → Bytes → Option (z.σ × Bool)
  | s, fresh, [] => some (s, fresh)
  | s, _, b :: bs =>
    match z.feed s b with
    | .bad => none
    | .last => after z z.init true bs
    | .more _ s' => after z s' false bs

/-- The bytes, up to their end or that of the member, do not stand for anything. -/
def silent (z : Inflater) : z.σ → Bytes → Bool
  | _, [] => true
  | s, b :: bs =>
    match z.feed s b with
    | .more out s' => out.isEmpty && silent z s' bs
    | _ => true

/-- A stream delivers the given blocks, none of them empty, if it is read in pieces of 512 KiB, and then nothing. -/
def Delivers (m : InStream) : m.σ → List Bytes → Prop
  | s, [] => ∀ k, m.reads s (List.replicate k 0x80000) = List.replicate k (.ok [])
  | s, b :: bs => b ≠ [] ∧ ∃ s', m.read s 0x80000 = (.ok b, s') ∧ Delivers m s' bs

/-- Wherever a block or a member begins, what follows, up to the end of that block or member (whichever comes first), stands
for something, unless there are no more contents at all. -/
def Audible (z : Inflater) (blocks : List Bytes) : Prop :=
  ∀ pre b post x y s fresh, blocks = pre ++ b :: post → b = x ++ y → y ≠ [] →
    after z z.init true (pre.flatten ++ x) = some (s, fresh) → (x = [] ∨ fresh = true) →
    silent z s y = true → unzip z s (y ++ post.flatten) = []

/-- The sizes of reads: not zero, and below 4 GiB. -/
def Sizes (ns : List Nat) : Prop := ∀ n ∈ ns, 0 < n ∧ n < 2 ^ 32

/-- A toy format in place of deflate: a member is the number 31, runs of a count `k` (1 to 200) and a byte, and zero.
(A run of 0 bytes is written with the count 201.) -/
def toyInflater : Inflater where
  σ := Option (Option Nat)
  init := none
  feed s b :=
    match s with
    | none => if b = 31 then .more [] (some none) else .bad
    | some none =>
      if b = 0 then .last else if b = 201 then .more [] (some (some 0))
      else if b.toNat ≤ 200 then .more [] (some (some b.toNat)) else .bad
    | some (some k) => .more (List.replicate k b) (some none)

end Mlio.Spec
