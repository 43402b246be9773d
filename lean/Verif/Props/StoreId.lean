import Verif.Proofs.StoreId

/-!
# C83: data stores are equal exactly if they stand for the same data
-/

namespace Mlio
open Spec

/-- C83: data stores of the same class of the library that compare equal, and have the same compression, stand for the same data,
whatever the world and the memory of the process hold; for objects, if the versions, and the URIs of those without a version, have
no `@`. -/
theorem C83_equal_partial (lf : Bool) (shared : Bytes) (a b : AnyStore) (hc : SameClass a b) (hcomp : compressionOf a = compressionOf b)
    (ha : PlainVersion a) (hb : PlainVersion b) (h : a.equal lf shared b = true) (w : World) (mem : Nat → UInt8) (s t : Store)
    (hs : a.store mem = some s) (ht : b.store mem = some t) : SameData w s t := by
  cases a with
  | python => exact hc.elim
  | pipe => cases hs
  | file p mm c =>
    cases b <;> first | exact hc.elim | skip
    next p' mm' c' =>
    rw [native_equal (by exact trivial) (by exact trivial)] at h
    have h : p = p' := by simpa [AnyStore.id] using h
    cases hs
    cases ht
    subst h
    exact ⟨hcomp, fun x => Iff.rfl⟩
  | memory ad n c =>
    cases b <;> first | exact hc.elim | skip
    rw [native_equal (by exact trivial) (by exact trivial)] at h
    obtain ⟨rfl, rfl⟩ := memoryId_inj (by simpa [AnyStore.id] using h)
    cases hs
    cases ht
    exact ⟨hcomp, fun x => Iff.rfl⟩
  | object u v c =>
    cases b <;> first | exact hc.elim | skip
    next u' v' c' =>
    rw [native_equal (by exact trivial) (by exact trivial)] at h
    have h : AnyStore.id (.object u v c) = AnyStore.id (.object u' v' c') := by simpa using h
    cases hs
    cases ht
    have : u = u' ∧ v = v' := by
      simp only [AnyStore.id, List.isEmpty_iff] at h
      simp only [PlainVersion] at ha hb
      by_cases hv : v = []
      · rw [if_pos hv] at h ha
        by_cases hv' : v' = []
        · rw [if_pos hv'] at h
          exact ⟨h, by rw [hv, hv']⟩
        · rw [if_neg hv'] at h
          exact absurd (by rw [h]; simp) ha
      · rw [if_neg hv] at h ha
        by_cases hv' : v' = []
        · rw [if_pos hv'] at h hb
          exact absurd (by rw [← h]; simp) hb
        · rw [if_neg hv'] at h hb
          exact split_last ha hb h
    obtain ⟨rfl, rfl⟩ := this
    exact ⟨hcomp, fun x => Iff.rfl⟩

/-- Two maps of the same file, one of them mapped into memory. -/
example : SameClass (.file [97] true .none) (.file [97] false .none) ∧
    AnyStore.equal true [] (.file [97] true .none) (.file [97] false .none) = true ∧
    AnyStore.equal true [] (.memory 4096 16 .none) (.memory 4096 17 .none) = false ∧
    PlainVersion (.object [115, 51, 58, 47, 47, 98, 47, 107] [118] .none) ∧
    AnyStore.id (.memory 4096 10 .none) = [48, 120, 49, 48, 48, 48, 43, 48, 120, 48, 97] := by
  refine ⟨trivial, by decide, ?_, by simp [PlainVersion], ?_⟩
  · rw [native_equal (by exact trivial) (by exact trivial)]
    simp [AnyStore.id, memoryId, hexDigits, hexDigit]
  · simp [AnyStore.id, memoryId, hexDigits, hexDigit]

/-- C83: for data stores of the library, comparing is an equivalence that does not depend on anything but the two, and equal data
stores have equal hashes. -/
theorem C83_hash (hashString : Bytes → Nat) (lf lf' : Bool) (shared shared' : Bytes) (a b c : AnyStore) (ha : Native a) (hb : Native b)
    (hc : Native c) :
    a.equal lf shared a = true ∧ a.equal lf shared b = b.equal lf' shared' a ∧
    (a.equal lf shared b = true → b.equal lf shared c = true → a.equal lf shared c = true) ∧
    (a.equal lf shared b = true → a.hash hashString shared = b.hash hashString shared') := by
  simp only [native_equal ha hb, native_equal hb ha, native_equal ha ha, native_equal hb hc, native_equal ha hc, beq_iff_eq]
  refine ⟨trivial, Bool.beq_comm, fun h1 h2 => h1.trans h2, fun h => ?_⟩
  have key : ∀ s sh, Native s → AnyStore.hash hashString sh s = hashString s.id := by
    intro s sh hs
    cases s <;> first | exact hs.elim | rfl
  rw [key a shared ha, key b shared' hb, h]

example : Native (.file [97] true .none) ∧ Native (.memory 16 2 .gzip) := ⟨trivial, trivial⟩

/-- C83 fails for data stores written in Python: any two of them are equal, whatever their names are, although their hashes are
those of their names. -/
theorem C83_python_violated (hashString : Bytes → Nat) (lf : Bool) (shared name name' : Bytes) :
    AnyStore.equal lf shared (.python name) (.python name') = true ∧
    AnyStore.hash hashString shared (.python name) = hashString name := by
  constructor
  · cases lf <;> simp [AnyStore.equal, AnyStore.idIn]
  · rfl

/-- C83 fails across versions: the version `v` of the object `k` and the object `k@v` compare equal, and have different bytes. -/
theorem C83_version_violated : ∃ (w : World) (a b : AnyStore) (s t : Store), a.equal true [] b = true ∧ SameClass a b ∧
    compressionOf a = compressionOf b ∧ a.store (fun _ => 0) = some s ∧ b.store (fun _ => 0) = some t ∧ ¬ SameData w s t := by
  refine ⟨⟨fun _ => none, fun _ k _ => some k⟩, .object [115, 51, 58, 47, 47, 98, 47, 107] [118] .none,
    .object [115, 51, 58, 47, 47, 98, 47, 107, 64, 118] [] .none, _, _, by decide, trivial, rfl, rfl, rfl, ?_⟩
  rintro ⟨_, h⟩
  obtain ⟨b, k, ⟨h1, _, h2, _⟩, h3⟩ := (h [107]).1 ⟨[98], [107], ⟨rfl, by simp, by decide, by simp⟩, rfl⟩
  have h3 : k = [107] := by simpa using h3
  subst h3
  have := congrArg (fun l => l.reverse.head?) h1
  simp at this

/-- C83 fails across compressions and classes: the file `p` taken as plain bytes equals the file `p` taken as gzip, and the pipe
channel `p`. -/
theorem C83_compression_violated (lf : Bool) (shared path : Bytes) (mm mm' : Bool) (mem : Nat → UInt8) (w : World) :
    AnyStore.equal lf shared (.file path mm .none) (.file path mm' .gzip) = true ∧
    AnyStore.equal lf shared (.file path mm .none) (.pipe path .none) = true ∧
    ∃ s t, AnyStore.store mem (.file path mm .none) = some s ∧ AnyStore.store mem (.file path mm' .gzip) = some t ∧ ¬ SameData w s t := by
  refine ⟨by cases lf <;> simp [AnyStore.equal, AnyStore.idIn, AnyStore.id], by cases lf <;> simp [AnyStore.equal, AnyStore.idIn, AnyStore.id], _, _, rfl,
    rfl, ?_⟩
  rintro ⟨h, _⟩
  cases h

end Mlio
