import Verif.Spec.Sagemaker

namespace Mlio
open Spec

/-- What holds in all states of a careful history. -/
structure SmInv (s : SmState) : Prop where
  /-- one stream per channel that is not destructed -/
  one : ∀ (i j : Nat) (a b : SmStream), s.streams[i]? = some a → s.streams[j]? = some b → a.phase ≠ .gone →
    b.phase ≠ .gone → a.path = b.path → i = j
  /-- the channel is taken while held -/
  taken : ∀ (i : Nat) (a : SmStream), s.streams[i]? = some a → HoldsChannel a → s.ids a.path = -1
  /-- the number of the next FIFO is larger than all used so far -/
  next : ∀ (i : Nat) (a : SmStream), s.streams[i]? = some a → a.phase ≠ .gone →
    0 ≤ a.id ∧ ∀ m ∈ numbersOf s a.path, m < a.id
  /-- so is the one in the map -/
  free : ∀ p, (∀ (i : Nat) (a : SmStream), s.streams[i]? = some a → HoldsChannel a → a.path ≠ p) →
    0 ≤ s.ids p ∧ ∀ m ∈ numbersOf s p, m < s.ids p
  /-- they have been increasing -/
  incr : ∀ p, (numbersOf s p).Pairwise (· < ·)

theorem smInv_init : SmInv SmState.init := by
  constructor <;> simp [SmState.init, numbersOf]

theorem getElem?_set_cases {α : Type} (l : List α) (i k : Nat) (x y : α) (h : (l.set i x)[k]? = some y) :
    (k = i ∧ y = x ∧ i < l.length) ∨ (k ≠ i ∧ l[k]? = some y) := by
  rw [List.getElem?_set] at h
  split at h
  · split at h
    · simp only [Option.some.injEq] at h
      exact Or.inl ⟨by omega, h.symm, by assumption⟩
    · cases h
  · exact Or.inr ⟨by omega, h⟩

theorem numbersOf_append (s : SmState) (p q : Bytes) (n : Int) (ids : Bytes → Int) (sts : List SmStream) :
    numbersOf ⟨ids, sts, s.used ++ [(q, n)]⟩ p = numbersOf s p ++ if q = p then [n] else [] := by
  simp only [numbersOf, List.filter_append, List.map_append, List.filter_cons, List.filter_nil, decide_eq_true_eq]
  split <;> simp

theorem numbersOf_same (s : SmState) (p : Bytes) (ids : Bytes → Int) (sts : List SmStream) :
    numbersOf ⟨ids, sts, s.used⟩ p = numbersOf s p := rfl

/-- Handing back a channel. -/
theorem smInv_release (s : SmState) (h : SmInv s) (i : Nat) (st : SmStream) (hst : s.streams[i]? = some st)
    (hl : st.phase ≠ .gone) (ph : SmPhase) (hph : ph = .closed ∨ ph = .gone) : SmInv (s.release i st ph) := by
  have hnh : ¬ HoldsChannel { st with phase := ph } := by
    unfold HoldsChannel; rcases hph with rfl | rfl <;> simp
  have other : ∀ (k : Nat) (a : SmStream), k ≠ i → s.streams[k]? = some a → a.phase ≠ .gone → a.path ≠ st.path :=
    fun k a hk ha hp hpath => hk (h.one k i a st ha hst hp hl hpath)
  constructor
  · intro k j a b ha hb hpa hpb hpath
    rcases getElem?_set_cases _ _ _ _ _ ha with ⟨rfl, rfl, _⟩ | ⟨hk, ha'⟩ <;>
      rcases getElem?_set_cases _ _ _ _ _ hb with ⟨rfl, rfl, _⟩ | ⟨hj, hb'⟩
    · rfl
    · exact absurd hpath.symm (other j b hj hb' hpb)
    · exact absurd hpath (other k a hk ha' hpa)
    · exact h.one k j a b ha' hb' hpa hpb hpath
  · intro k a ha hh
    rcases getElem?_set_cases _ _ _ _ _ ha with ⟨rfl, rfl, _⟩ | ⟨hk, ha'⟩
    · exact absurd hh hnh
    · have hne : a.phase ≠ .gone := by unfold HoldsChannel at hh; rcases hh with h' | h' <;> simp [h']
      simp only [SmState.release, if_neg (other k a hk ha' hne)]
      exact h.taken k a ha' hh
  · intro k a ha hp
    rcases getElem?_set_cases _ _ _ _ _ ha with ⟨rfl, rfl, _⟩ | ⟨hk, ha'⟩
    · exact h.next k st hst hl
    · exact h.next k a ha' hp
  · intro p hp
    by_cases hpp : p = st.path
    · subst hpp
      simp only [SmState.release, if_true]
      exact h.next i st hst hl
    · simp only [SmState.release, if_neg hpp]
      refine h.free p ?_
      intro k a ha hh
      by_cases hk : k = i
      · subst hk
        rw [hst] at ha
        simp only [Option.some.injEq] at ha
        subst ha
        exact fun e => hpp e.symm
      · refine hp k a ?_ hh
        simp only [SmState.release]
        rw [List.getElem?_set, if_neg (fun e => hk e.symm)]
        exact ha
  · exact h.incr

/-- Opening the FIFO of a channel. -/
theorem smInv_open (s : SmState) (h : SmInv s) (i : Nat) (st : SmStream) (hst : s.streams[i]? = some st)
    (hm : st.phase = .made) :
    SmInv ⟨s.ids, s.streams.set i { st with id := st.id + 1, phase := .opened }, s.used ++ [(st.path, st.id)]⟩ := by
  have hl : st.phase ≠ .gone := by rw [hm]; decide
  have other : ∀ (k : Nat) (a : SmStream), k ≠ i → s.streams[k]? = some a → a.phase ≠ .gone → a.path ≠ st.path :=
    fun k a hk ha hp hpath => hk (h.one k i a st ha hst hp hl hpath)
  have hn := h.next i st hst hl
  constructor
  · intro k j a b ha hb hpa hpb hpath
    rcases getElem?_set_cases _ _ _ _ _ ha with ⟨rfl, rfl, _⟩ | ⟨hk, ha'⟩ <;>
      rcases getElem?_set_cases _ _ _ _ _ hb with ⟨rfl, rfl, _⟩ | ⟨hj, hb'⟩
    · rfl
    · exact absurd hpath.symm (other j b hj hb' hpb)
    · exact absurd hpath (other k a hk ha' hpa)
    · exact h.one k j a b ha' hb' hpa hpb hpath
  · intro k a ha hh
    rcases getElem?_set_cases _ _ _ _ _ ha with ⟨rfl, rfl, _⟩ | ⟨hk, ha'⟩
    · exact h.taken k st hst (Or.inl hm)
    · exact h.taken k a ha' hh
  · intro k a ha hp
    rw [numbersOf_append]
    rcases getElem?_set_cases _ _ _ _ _ ha with ⟨rfl, rfl, _⟩ | ⟨hk, ha'⟩
    · refine ⟨by simp only; omega, fun m hmem => ?_⟩
      simp only [if_true, List.mem_append, List.mem_singleton] at hmem
      rcases hmem with hmem | rfl
      · have := hn.2 m hmem; simp only; omega
      · simp only; omega
    · rw [if_neg (fun e => other k a hk ha' hp e.symm), List.append_nil]
      exact h.next k a ha' hp
  · intro p hp
    have hpp : st.path ≠ p := by
      refine hp i { st with id := st.id + 1, phase := .opened } ?_ (Or.inr rfl)
      have hlt : i < s.streams.length := (List.getElem?_eq_some_iff.1 hst).1
      simp [hlt]
    rw [numbersOf_append, if_neg hpp, List.append_nil]
    refine h.free p ?_
    intro k a ha hh
    by_cases hk : k = i
    · subst hk
      rw [hst] at ha
      simp only [Option.some.injEq] at ha
      subst ha
      exact hpp
    · refine hp k a ?_ hh
      simp only
      rw [List.getElem?_set, if_neg (fun e => hk e.symm)]
      exact ha
  · intro p
    rw [numbersOf_append]
    split
    · rename_i hpp
      subst hpp
      rw [List.pairwise_append]
      refine ⟨h.incr _, by simp, fun a ha b hb => ?_⟩
      simp only [List.mem_singleton] at hb
      subst hb
      exact hn.2 a ha
    · rw [List.append_nil]; exact h.incr p

theorem smAsSsize_small (n : Nat) (h : n < 2 ^ 63) : smAsSsize n = n := by
  have h2 : n % 2 ^ 64 = n := Nat.mod_eq_of_lt (by omega)
  unfold smAsSsize
  rw [h2, if_pos h]

theorem smInv_make (s : SmState) (h : SmInv s) (path : Bytes) (fifo : Option Nat) (id : Int)
    (hclosed : ∀ st ∈ s.streams, st.path = path → st.phase ≠ .closed) (hfree : s.ids path ≠ -1)
    (hid : 0 ≤ id ∧ ∀ m ∈ numbersOf s path, m < id) :
    SmInv ⟨fun p => if p = path then -1 else s.ids p, s.streams ++ [⟨path, id, .made⟩], s.used⟩ := by
  have hno : ∀ (k : Nat) (a : SmStream), s.streams[k]? = some a → a.phase ≠ .gone → a.path ≠ path := by
    intro k a ha hp hpath
    have hc := hclosed a (List.mem_of_getElem? ha) hpath
    have hh : HoldsChannel a := by
      unfold HoldsChannel
      cases hph : a.phase with
      | made => exact Or.inl rfl
      | opened => exact Or.inr rfl
      | closed => exact absurd hph hc
      | gone => exact absurd hph hp
    have := h.taken k a ha hh
    rw [hpath] at this
    exact hfree this
  have cases' : ∀ (k : Nat) (a : SmStream), (s.streams ++ [⟨path, id, .made⟩])[k]? = some a →
      s.streams[k]? = some a ∨ (k = s.streams.length ∧ a = ⟨path, id, .made⟩) := by
    intro k a ha
    rw [List.getElem?_append] at ha
    split at ha
    · exact Or.inl ha
    · rename_i hk
      rcases hq : k - s.streams.length with _ | q
      · rw [hq] at ha
        simp only [List.getElem?_cons_zero, Option.some.injEq] at ha
        exact Or.inr ⟨by omega, ha.symm⟩
      · rw [hq] at ha
        simp at ha
  constructor
  · intro k j a b ha hb hpa hpb hpath
    rcases cases' k a ha with ha | ⟨rfl, rfl⟩ <;> rcases cases' j b hb with hb | ⟨rfl, rfl⟩
    · exact h.one k j a b ha hb hpa hpb hpath
    · exact absurd hpath (hno k a ha hpa)
    · exact absurd hpath.symm (hno j b hb hpb)
    · rfl
  · intro k a ha hh
    rcases cases' k a ha with ha | ⟨rfl, rfl⟩
    · have hne : a.phase ≠ .gone := by unfold HoldsChannel at hh; rcases hh with h' | h' <;> simp [h']
      simp only [if_neg (hno k a ha hne)]
      exact h.taken k a ha hh
    · simp
  · intro k a ha hp
    rcases cases' k a ha with ha | ⟨rfl, rfl⟩
    · exact h.next k a ha hp
    · exact hid
  · intro p hp
    have hpp : path ≠ p := hp s.streams.length ⟨path, id, .made⟩ (by simp) (Or.inl rfl)
    have hpp' : ¬ p = path := fun e => hpp e.symm
    simp only [if_neg hpp']
    refine h.free p ?_
    intro k a ha hh
    refine hp k a ?_ hh
    have hlt : k < s.streams.length := (List.getElem?_eq_some_iff.1 ha).1
    simp only
    rw [List.getElem?_append_left hlt]
    exact ha
  · exact h.incr

theorem smInv_step (ok : SmState → Bytes → Option Nat → Prop)
    (hok : ∀ s p f, ok s p f → FreshNumbers s p f) (s s' : SmState) (h : SmInv s) (o : SmOp) (r : Res Unit)
    (hc : match o with
      | .make path fifo => (∀ st ∈ s.streams, st.path = path → st.phase ≠ .closed) ∧ ok s path fifo
      | _ => True)
    (hs : s.step o = some (s', r)) : SmInv s' := by
  cases o with
  | make path fifo =>
    simp only [SmState.step] at hs
    split at hs
    · simp only [Option.some.injEq, Prod.mk.injEq] at hs; rw [← hs.1]; exact h
    · simp only [Option.some.injEq, Prod.mk.injEq] at hs; rw [← hs.1]; exact h
    · split at hs
      · simp only [Option.some.injEq, Prod.mk.injEq] at hs; rw [← hs.1]; exact h
      · rename_i hfree
        simp only [Option.some.injEq, Prod.mk.injEq] at hs
        rw [← hs.1]
        refine smInv_make s h path fifo _ hc.1 hfree ?_
        cases fifo with
        | none =>
          refine h.free path ?_
          intro k a ha hh hpath
          have := h.taken k a ha hh
          rw [hpath] at this
          exact hfree this
        | some n =>
          obtain ⟨h1, h2⟩ := hok _ _ _ hc.2 n rfl
          simp only [smAsSsize_small n h1]
          exact ⟨by omega, h2⟩
  | openOk i =>
    simp only [SmState.step] at hs
    split at hs
    · rename_i st hst
      split at hs
      · rename_i hm
        simp only [Option.some.injEq, Prod.mk.injEq] at hs
        rw [← hs.1]
        exact smInv_open s h i st hst hm
      · cases hs
    · cases hs
  | openTimeout i =>
    simp only [SmState.step] at hs
    split at hs
    · rename_i st hst
      split at hs
      · rename_i hm
        simp only [Option.some.injEq, Prod.mk.injEq] at hs
        rw [← hs.1]
        have h1 := smInv_open s h i st hst hm
        have hlt : i < s.streams.length := (List.getElem?_eq_some_iff.1 hst).1
        have h2 := smInv_release _ h1 i { st with id := st.id + 1, phase := .opened } (by simp [hlt]) (by simp) .gone
          (Or.inr rfl)
        simpa [SmState.release] using h2
      · cases hs
    · cases hs
  | openFail i =>
    simp only [SmState.step] at hs
    split at hs
    · rename_i st hst
      split at hs
      · rename_i hm
        simp only [Option.some.injEq, Prod.mk.injEq] at hs
        rw [← hs.1]
        exact smInv_release s h i st hst (by rw [hm]; decide) .gone (Or.inr rfl)
      · cases hs
    · cases hs
  | close i =>
    simp only [SmState.step] at hs
    split at hs
    · rename_i st hst
      split at hs
      · rename_i hm
        simp only [Option.some.injEq, Prod.mk.injEq] at hs
        rw [← hs.1]
        exact smInv_release s h i st hst (by rcases hm with hm | hm <;> rw [hm] <;> decide) .closed (Or.inl rfl)
      · cases hs
    · cases hs
  | destroy i =>
    simp only [SmState.step] at hs
    split at hs
    · rename_i st hst
      split at hs
      · rename_i hm
        simp only [Option.some.injEq, Prod.mk.injEq] at hs
        rw [← hs.1]
        exact smInv_release s h i st hst (by rcases hm with hm | hm <;> rw [hm] <;> decide) .gone (Or.inr rfl)
      · cases hs
    · cases hs

theorem smInv_run (ok : SmState → Bytes → Option Nat → Prop) (hok : ∀ s p f, ok s p f → FreshNumbers s p f) :
    ∀ (os : List SmOp) (s : SmState), SmInv s → Careful ok s os → SmInv (s.run os)
  | [], _, h, _ => h
  | o :: os, s, h, hc => by
    simp only [Careful] at hc
    simp only [SmState.run]
    rcases hs : s.step o with _ | ⟨s', r⟩
    · rw [hs] at hc
      exact smInv_run ok hok os s h hc.2
    · rw [hs] at hc
      exact smInv_run ok hok os s' (smInv_step ok hok s s' h o r hc.1 hs) hc.2

end Mlio
