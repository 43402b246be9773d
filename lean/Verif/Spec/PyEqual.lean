import Verif.Model.PyEqual
import Verif.Spec.StoreId

/-! # What comparing objects means, for C115 -/

namespace Mlio.Spec

/-- The objects are of the same class of the library; data stores count as one class, without those written in Python. -/
def SameKind : PyThing → PyThing → Prop
  | .kind _, .kind _ => True
  | .device _ _, .device _ _ => True
  | .attribute _, .attribute _ => True
  | .schema _, .schema _ => True
  | .store a, .store b => Native a ∧ Native b
  | _, _ => False

/-- The objects have the same values: names, numbers, attributes; data stores, the same id. -/
def SameValue : PyThing → PyThing → Prop
  | .kind a, .kind b => a = b
  | .device a i, .device b j => a = b ∧ i = j
  | .attribute a, .attribute b => a = b
  | .schema s, .schema t => s.attrs = t.attrs
  | .store a, .store b => a.id = b.id
  | _, _ => False

/-- The class of an object of the library; `none` for other objects. -/
def classOf : PyThing → Option Nat
  | .kind _ => some 0
  | .device _ _ => some 1
  | .attribute _ => some 2
  | .schema _ => some 3
  | .store _ => some 4
  | .foreign _ => none

/-- An object of the library. -/
def OfLibrary (x : PyItem) : Prop := classOf x.val ≠ none

/-- An object that is not of the class of `x`, and leaves it to `x` to compare: one of another class of the library, or `None`, a number, a string. -/
def Stranger (x y : PyItem) : Prop := classOf y.val ≠ classOf x.val ∧ ∀ b, y.val ≠ .foreign (some b)

end Mlio.Spec
