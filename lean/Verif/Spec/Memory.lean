import Verif.Model.Memory

/-!
# What memory slices, memory streams and file streams are meant to do
-/

namespace Mlio.Spec

/-- The slice lies inside the block, and the block is no larger than any object can be. -/
def InBlock (b : Bytes) (s : PSlice) : Prop := 0 ≤ s.beg ∧ s.beg ≤ s.fin ∧ s.fin ≤ b.length ∧ b.length < 2 ^ 63

/-- Part of the bytes `x`: `n` bytes from the given offset; outside of `x` an invalid argument. -/
def IsPart (b : Bytes) (x : Bytes) (offset n : Nat) : Res PSlice → Prop
  | .ok t => offset + n ≤ x.length ∧ InBlock b t ∧ t.bytes b = (x.drop offset).take n
  | .err e => x.length < offset + n ∧ e = .invalidArgument
  | .ub _ => False

/-- A cursor over bytes: its position and whether it is closed. -/
structure Cursor where
  pos : Nat
  closed : Bool
  deriving DecidableEq, Repr

/-- A call on a cursor over `x` that delivers all it can. -/
def Cursor.call (x : Bytes) (c : Cursor) (k : StreamCall) : StreamOut × Cursor :=
  match c.closed, k with
  | _, .close => (.unit (.ok ()), { c with closed := true })
  | true, .readInto _ => (.bytes (.err .streamError), c)
  | true, .read _ => (.bytes (.err .streamError), c)
  | true, .seek _ => (.unit (.err .streamError), c)
  | true, .size => (.num (.err .streamError), c)
  | true, .position => (.num (.err .streamError), c)
  | false, .readInto n => (.bytes (.ok ((x.drop c.pos).take n)), { c with pos := min (c.pos + n) x.length })
  | false, .read n => (.bytes (.ok ((x.drop c.pos).take n)), { c with pos := min (c.pos + n) x.length })
  | false, .seek n => (.unit (.ok ()), { c with pos := min n x.length })
  | false, .size => (.num (.ok x.length), c)
  | false, .position => (.num (.ok c.pos), c)

/-- Calls one after another. -/
def Cursor.calls (x : Bytes) : Cursor → List StreamCall → List StreamOut
  | _, [] => []
  | c, k :: ks => (c.call x k).1 :: Cursor.calls x (c.call x k).2 ks

/-- The argument of the call is below `2 ^ 63`. -/
def StreamCall.Small : StreamCall → Prop
  | .readInto n => n < 2 ^ 63
  | .read n => n < 2 ^ 63
  | .seek n => n < 2 ^ 63
  | _ => True

/-- What may be returned by successive calls if reads may deliver fewer bytes than asked for: the next bytes, at
least one unless none was asked for or the end is reached.  All other calls are as for the cursor. -/
inductive ShortCalls (x : Bytes) : Cursor → List StreamCall → List StreamOut → Prop
  | nil (c : Cursor) : ShortCalls x c [] []
  | short (p n m : Nat) (k : StreamCall) (ks : List StreamCall) (os : List StreamOut) :
      k = .readInto n ∨ k = .read n → m ≤ n → (0 < m ∨ n = 0 ∨ x.length ≤ p) →
      ShortCalls x ⟨min (p + m) x.length, false⟩ ks os →
      ShortCalls x ⟨p, false⟩ (k :: ks) (.bytes (.ok ((x.drop p).take m)) :: os)
  | exact (c : Cursor) (k : StreamCall) (ks : List StreamCall) (os : List StreamOut) :
      ShortCalls x (c.call x k).2 ks os → ShortCalls x c (k :: ks) ((c.call x k).1 :: os)

end Mlio.Spec
