import Verif.Model.Stores

/-!
# What ordering, listing, URIs and the S3 stream are meant to do
-/

namespace Mlio.Spec

/-- A strict weak ordering: what `std::sort` requires of its comparison. -/
structure StrictWeak {α : Type} (lt : α → α → Bool) : Prop where
  irrefl : ∀ a, lt a a = false
  trans : ∀ a b c, lt a b = true → lt b c = true → lt a c = true
  incomp : ∀ a b c, lt a b = false → lt b a = false → lt b c = false → lt c b = false →
    lt a c = false ∧ lt c a = false

/-- The list is sorted: no element is less than an earlier one. -/
def Sorted {α : Type} (lt : α → α → Bool) (l : List α) : Prop := l.Pairwise fun a b => lt b a = false

/-- What `std::sort` guarantees: for a strict weak ordering, a sorted permutation. -/
def Sorts {α : Type} (lt : α → α → Bool) (sort : List α → List α) : Prop :=
  StrictWeak lt → ∀ l, (sort l).Perm l ∧ Sorted lt (sort l)

/-- The number written with the given decimal digits. -/
def decimal (ds : Bytes) : Nat := ds.foldl (fun n d => n * 10 + (d.toNat - 48)) 0

/-- A number without leading zeros. -/
def PlainNumber (ds : Bytes) : Prop := ds ≠ [] ∧ (∀ d ∈ ds, 48 ≤ d.toNat ∧ d.toNat ≤ 57) ∧ ds.head? ≠ some 48

/-- The bytes have no digit at the end. -/
def NoDigitAtEnd (s : Bytes) : Prop := ∀ c, s.getLast? = some c → ¬ (48 ≤ c.toNat ∧ c.toNat ≤ 57)

/-- The bytes have no digit at the start. -/
def NoDigitAtStart (s : Bytes) : Prop := ∀ c, s.head? = some c → ¬ (48 ≤ c.toNat ∧ c.toNat ≤ 57)

/-- The value of a character, which is a signed or an unsigned byte. -/
def charValue (signed : Bool) (c : UInt8) : Int := if signed then c.toInt8.toInt else c.toNat

/-- NameBlank space in the "C" locale: space, tab, line feed, vertical tab, form feed, carriage return. -/
def NameBlank (c : UInt8) : Prop := c ∈ ([32, 9, 10, 11, 12, 13] : Bytes)

/-- Characters that have no meaning of their own for natural ordering: no digit, no white space, no NUL. -/
def Wordy (s : Bytes) : Prop := ∀ c ∈ s, ¬ (48 ≤ c.toNat ∧ c.toNat ≤ 57) ∧ ¬ NameBlank c ∧ c ≠ 0

/-- The order of `strcmp`: at the first place where the two differ – the end counts as a character with the value 0 – the one with
the smaller character comes first. -/
def BeforeByChar (signed : Bool) (a b : Bytes) : Prop :=
  ∃ p x y a' b', a ++ [0] = p ++ x :: a' ∧ b ++ [0] = p ++ y :: b' ∧ charValue signed x < charValue signed y

/-- The pages that the service delivers from the given token on, one after the other, until one is not truncated. -/
inductive Pages {T : Type} (server : Option T → List Bytes × Option T) : Option T → List (List Bytes) → Prop
  | last (tok : Option T) (keys : List Bytes) : server tok = (keys, none) → Pages server tok [keys]
  | more (tok : Option T) (keys : List Bytes) (t : T) (ps : List (List Bytes)) : server tok = (keys, some t) →
      Pages server (some t) ps → Pages server tok (keys :: ps)

/-- The URI passes the filters. -/
def Passes (pattern : Option (Bytes → Option Bool)) (predicate : Option (Bytes → Bool)) (u : Bytes) : Bool :=
  (match pattern with | none => true | some f => f u == some true) &&
  (match predicate with | none => true | some p => p u)

/-- A call on an S3 object with contents `x`: as for any cursor, but seeking beyond the end is an error, and size and
position can still be asked for after closing. -/
def objectCall (x : Bytes) (pos : Nat) (closed : Bool) (k : StreamCall) : StreamOut × Nat × Bool :=
  match k with
  | .close => (.unit (.ok ()), pos, true)
  | .size => (.num (.ok x.length), pos, closed)
  | .position => (.num (.ok pos), pos, closed)
  | .readInto n => if closed then (.bytes (.err .streamError), pos, closed)
    else (.bytes (.ok ((x.drop pos).take n)), min (pos + n) x.length, closed)
  | .read n => if closed then (.bytes (.err .streamError), pos, closed)
    else (.bytes (.ok ((x.drop pos).take n)), min (pos + n) x.length, closed)
  | .seek n => if closed then (.unit (.err .streamError), pos, closed)
    else if n ≤ x.length then (.unit (.ok ()), n, closed) else (.unit (.err .systemError), pos, closed)

/-- Calls one after another. -/
def objectCalls (x : Bytes) : Nat → Bool → List StreamCall → List StreamOut
  | _, _, [] => []
  | p, c, k :: ks => (objectCall x p c k).1 :: objectCalls x (objectCall x p c k).2.1 (objectCall x p c k).2.2 ks

end Mlio.Spec
