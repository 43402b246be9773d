import Verif.Model.Arrow
import Verif.Spec.DataStore
import Verif.Spec.Memory

/-!
# What an Arrow file over some bytes is meant to answer
-/

namespace Mlio.Spec

/-- No argument of the call is negative, and all are of the type `int64_t`. -/
def ArrowCall.Valid : ArrowCall → Prop
  | .read n => 0 ≤ n ∧ n < 2 ^ 63
  | .readBuffer n => 0 ≤ n ∧ n < 2 ^ 63
  | .readAt p n => (0 ≤ p ∧ p < 2 ^ 63) ∧ 0 ≤ n ∧ n < 2 ^ 63
  | .readBufferAt p n => (0 ≤ p ∧ p < 2 ^ 63) ∧ 0 ≤ n ∧ n < 2 ^ 63
  | .seek p => 0 ≤ p ∧ p < 2 ^ 63
  | _ => True

/-- `got` may be the answer to a request of `n` bytes at the position `p` of `x`: the next bytes; all of them, or, if reads may
be short, at least one of them unless none was asked for or there is none. -/
def Part (whole : Bool) (x : Bytes) (p n : Nat) (got : Bytes) : Prop :=
  got <+: (x.drop p).take n ∧ (whole = true → got = (x.drop p).take n) ∧ ((x.drop p).take n ≠ [] → got ≠ [])

/-- Answers of an Arrow file over the bytes `x`, which is at position `p` and closed or not, to calls one after another.
If `whole`, reads deliver all that was asked for and is there. -/
inductive Answers (whole : Bool) (x : Bytes) : (p : Nat) → (closed : Bool) → List ArrowCall → List ArrowOut → Prop
  | nil (p : Nat) (c : Bool) : Answers whole x p c [] []
  /-- A closed file can be closed again and asked whether it is closed; everything else is refused. -/
  | refuse (p : Nat) (k : ArrowCall) (ks : List ArrowCall) (os : List ArrowOut) : k ≠ .close → k ≠ .closed →
      Answers whole x p true ks os → Answers whole x p true (k :: ks) (.failed .invalid :: os)
  | close (p : Nat) (c : Bool) (ks : List ArrowCall) (os : List ArrowOut) :
      Answers whole x p true ks os → Answers whole x p c (.close :: ks) (.done :: os)
  | closed (p : Nat) (c : Bool) (ks : List ArrowCall) (os : List ArrowOut) :
      Answers whole x p c ks os → Answers whole x p c (.closed :: ks) (.flag c :: os)
  /-- A read gives the bytes at the position, which moves behind them. -/
  | read (p n : Nat) (k : ArrowCall) (got : Bytes) (ks : List ArrowCall) (os : List ArrowOut) :
      k = .read n ∨ k = .readBuffer n → Part whole x p n got →
      Answers whole x (p + got.length) false ks os → Answers whole x p false (k :: ks) (.bytes got :: os)
  /-- A positioned read gives the bytes there, wherever the file was. -/
  | readAt (p q n : Nat) (k : ArrowCall) (got : Bytes) (ks : List ArrowCall) (os : List ArrowOut) :
      k = .readAt q n ∨ k = .readBufferAt q n → q ≤ x.length → Part whole x q n got →
      Answers whole x (q + got.length) false ks os → Answers whole x p false (k :: ks) (.bytes got :: os)
  | seek (p q : Nat) (ks : List ArrowCall) (os : List ArrowOut) : q ≤ x.length →
      Answers whole x q false ks os → Answers whole x p false (.seek q :: ks) (.done :: os)
  | tell (p : Nat) (ks : List ArrowCall) (os : List ArrowOut) :
      Answers whole x p false ks os → Answers whole x p false (.tell :: ks) (.num p :: os)
  | getSize (p : Nat) (ks : List ArrowCall) (os : List ArrowOut) :
      Answers whole x p false ks os → Answers whole x p false (.getSize :: ks) (.num x.length :: os)
  /-- Behind the end, a file either is at the end, and there is nothing to read, -/
  | seekEnd (p q : Nat) (ks : List ArrowCall) (os : List ArrowOut) : x.length < q →
      Answers whole x x.length false ks os → Answers whole x p false (.seek q :: ks) (.done :: os)
  | readEnd (p q n : Nat) (k : ArrowCall) (ks : List ArrowCall) (os : List ArrowOut) :
      k = .readAt q n ∨ k = .readBufferAt q n → x.length < q →
      Answers whole x x.length false ks os → Answers whole x p false (k :: ks) (.bytes [] :: os)
  /-- or says that it cannot go there, and stays where it is. -/
  | beyond (p q n : Nat) (k : ArrowCall) (ks : List ArrowCall) (os : List ArrowOut) :
      k = .seek q ∨ k = .readAt q n ∨ k = .readBufferAt q n → x.length < q →
      Answers whole x p false ks os → Answers whole x p false (k :: ks) (.failed .unknownError :: os)

/-- The operating system delivers all bytes of the file that are asked for in a single `read(2)`. -/
def WholeReads (w : World) : Store → Prop
  | .file path memoryMap _ => memoryMap = true ∨ ∀ x sched, w.files path = some (x, sched) → sched = []
  | _ => True

end Mlio.Spec
