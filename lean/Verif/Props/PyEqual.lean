import Verif.Spec.PyEqual
import Verif.Proofs.StoreId
import Verif.Proofs.Tensor

/-!
# C115: objects of the library can be compared with anything in Python
-/

namespace Mlio
open Spec

/-- C115 for two objects of the same class: `==` is true exactly if they have the same values, `!=` is its negation, the order does not matter, and
nothing is raised.  (Missing: objects of other classes, see `C115_foreign_violated`.) -/
theorem C115_same_partial (x y : PyItem) (h : SameKind x.val y.val) :
    ∃ b, pyCompare false x y = .bool b ∧ pyCompare true x y = .bool (!b) ∧ pyCompare false y x = .bool b ∧ (b = true ↔ SameValue x.val y.val) := by
  obtain ⟨ax, vx⟩ := x
  obtain ⟨ay, vy⟩ := y
  have key : ∃ b, eqMethod vx vy = .bool b ∧ eqMethod vy vx = .bool b ∧ (b = true ↔ SameValue vx vy) := by
    have sym : ∀ {b c : Bool} {P : Prop}, (b = true ↔ P) → (c = true ↔ P) → c = b := by
      intro b c P hb hc
      cases b <;> cases c <;> simp_all
    cases vx <;> cases vy <;> first | exact h.elim | skip
    case kind.kind a b =>
      exact ⟨a == b, rfl, congrArg EqAns.bool (sym (P := a = b) (by simp) (by rw [beq_iff_eq]; exact eq_comm)), by simp [SameValue]⟩
    case device.device a i b j =>
      refine ⟨deviceEq (a, i) (b, j), rfl, congrArg EqAns.bool (sym (P := a = b ∧ i = j) (by simp [deviceEq]) ?_), by simp [deviceEq, SameValue]⟩
      simp only [deviceEq, Bool.and_eq_true, beq_iff_eq]; exact and_congr eq_comm eq_comm
    case attribute.attribute a b =>
      exact ⟨a.eq b, rfl, congrArg EqAns.bool (sym (Attr.eq_iff a b) ((Attr.eq_iff b a).trans eq_comm)), Attr.eq_iff a b⟩
    case schema.schema s t =>
      exact ⟨s.eq t, rfl, congrArg EqAns.bool (sym (attrsEq_iff _ _) ((attrsEq_iff t.attrs s.attrs).trans eq_comm)), attrsEq_iff _ _⟩
    case store.store a b =>
      have e1 := native_equal h.1 h.2 true []
      have e2 := native_equal h.2 h.1 true []
      exact ⟨a.equal true [] b, rfl, congrArg EqAns.bool (sym (P := a.id = b.id) (by simp [e1]) (by rw [e2, beq_iff_eq]; exact eq_comm)), by simp [e1, SameValue]⟩
  obtain ⟨b, h1, h2, h3⟩ := key
  refine ⟨b, ?_, ?_, ?_, h3⟩ <;> simp [pyCompare, h1, h2]

/-- C115: objects of the same class that compare equal have equal hashes, whatever the hash functions of the library are. -/
theorem C115_hash (H : Hashes) (x y : PyItem) (h : SameKind x.val y.val) (he : pyCompare false x y = .bool true) :
    hashMethod H x.val = hashMethod H y.val ∧ hashMethod H x.val ≠ none := by
  obtain ⟨b, h1, -, -, h4⟩ := C115_same_partial x y h
  rw [he] at h1
  have hv := h4.1 (PyTruth.bool.inj h1).symm
  obtain ⟨ax, vx⟩ := x
  obtain ⟨ay, vy⟩ := y
  cases vx <;> cases vy <;> first | exact h.elim | skip
  case kind.kind a b => simp_all [SameValue, hashMethod]
  case device.device a i b j => simp_all [SameValue, hashMethod]
  case attribute.attribute a b => simp_all [SameValue, hashMethod]
  case schema.schema s t => simp_all [SameValue, hashMethod, Schema.hash]
  case store.store a b =>
    have hn : ∀ s, Native s → s.idIn (s.share []) = s.id := by
      intro s hs; cases s <;> first | exact hs.elim | rfl
    have hv : a.id = b.id := hv
    simp [hashMethod, hn a h.1, hn b h.2, hv]

/-- C115 fails for objects of different classes: `x == y`, `x != y`, `y == x` and `y != x` all raise `TypeError`, for every object `x` of the library and
every `y` of another class that does not answer itself, such as `None`. -/
theorem C115_foreign_violated (x y : PyItem) (hx : OfLibrary x) (hy : Stranger x y) (neg : Bool) :
    pyCompare neg x y = .typeError ∧ pyCompare neg y x = .typeError := by
  obtain ⟨ax, vx⟩ := x
  obtain ⟨ay, vy⟩ := y
  obtain ⟨hc, hf⟩ := hy
  cases vx <;> cases vy <;> first
    | exact absurd rfl hx
    | exact absurd rfl hc
    | exact ⟨rfl, rfl⟩
    | (rename_i o; cases o <;> first | exact ⟨rfl, rfl⟩ | exact absurd rfl (hf _))

/-- C115 fails for objects that answer themselves, such as `unittest.mock.ANY`: which side they stand on decides whether there is an answer. -/
theorem C115_side_violated (x y : PyItem) (hx : OfLibrary x) (b : Bool) (hy : y.val = .foreign (some b)) (neg : Bool) :
    pyCompare neg y x = .bool (b != neg) ∧ pyCompare neg x y = .typeError := by
  obtain ⟨ax, vx⟩ := x
  obtain ⟨ay, vy⟩ := y
  cases hy
  cases vx <;> first | exact absurd rfl hx | exact ⟨rfl, rfl⟩

/-- C115 fails for lists: whether `x in l` is true or raises `TypeError` depends on the order of `l`. -/
theorem C115_in_violated (memberFirst : Bool) (x y : PyItem) (hx : OfLibrary x) (hy : Stranger x y) (ha : x.addr ≠ y.addr) (l : List PyItem) :
    pyIn memberFirst x (x :: y :: l) = .bool true ∧ pyIn memberFirst x (y :: x :: l) = .typeError := by
  obtain ⟨h1, h2⟩ := C115_foreign_violated x y hx hy false
  cases memberFirst <;> simp [pyIn, ha, h1, h2]

/-- C115 for lists of objects of one class: `x in l` is true exactly if `l` has an object with the values of `x`, or `x` itself, and nothing is raised. -/
theorem C115_in_partial (memberFirst : Bool) (x : PyItem) (l : List PyItem) (h : ∀ y ∈ l, SameKind x.val y.val) :
    ∃ b, pyIn memberFirst x l = .bool b ∧ (b = true ↔ ∃ y ∈ l, x.addr = y.addr ∨ SameValue x.val y.val) := by
  induction l with
  | nil => exact ⟨false, rfl, by simp⟩
  | cons y l ih =>
    obtain ⟨b, h1, h2⟩ := ih fun z hz => h z (List.mem_cons_of_mem _ hz)
    by_cases ha : x.addr = y.addr
    · exact ⟨true, by simp [pyIn, ha], by simp [ha]⟩
    obtain ⟨c, c1, -, c3, c4⟩ := C115_same_partial x y (h y List.mem_cons_self)
    cases c with
    | true => exact ⟨true, by cases memberFirst <;> simp [pyIn, ha, c1, c3], by simp [c4.1 rfl]⟩
    | false =>
      have hn : ¬ SameValue x.val y.val := fun hv => Bool.noConfusion (c4.2 hv)
      exact ⟨b, by cases memberFirst <;> simp [pyIn, ha, c1, c3, h1], by simp [ha, hn, h2]⟩

/-! Cases that meet the hypotheses. -/

example : SameKind (.device [99, 112, 117] 0) (.device [99, 112, 117] 1) ∧ ¬ SameValue (.device [99, 112, 117] 0) (.device [99, 112, 117] 1) ∧
    pyCompare false ⟨1, .device [99, 112, 117] 0⟩ ⟨2, .device [99, 112, 117] 1⟩ = .bool false ∧
    pyCompare false ⟨1, .device [99, 112, 117] 1⟩ ⟨2, .device [99, 112, 117] 1⟩ = .bool true :=
  ⟨trivial, by simp [SameValue], by decide +kernel, by decide +kernel⟩

example : OfLibrary ⟨1, .kind [99, 112, 117]⟩ ∧ Stranger ⟨1, .kind [99, 112, 117]⟩ ⟨2, .foreign none⟩ ∧
    Stranger ⟨1, .kind [99, 112, 117]⟩ ⟨2, .store (.python [])⟩ :=
  ⟨by simp [OfLibrary, classOf], ⟨by simp [classOf], by simp⟩, ⟨by simp [classOf], by simp⟩⟩

end Mlio
