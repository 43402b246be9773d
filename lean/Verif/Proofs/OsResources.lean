import Verif.Spec.OsResources

/-! # Lemmas for descriptors, mappings and temporary files -/

namespace Mlio

open Spec

/-- A table with one entry changed. -/
def upd {α : Type} (f : Nat → α) (i : Nat) (v : α) : Nat → α := fun j => if j = i then v else f j

theorem upd_same {α : Type} (f : Nat → α) (i : Nat) (v : α) : upd f i v i = v := by simp [upd]

theorem upd_other {α : Type} (f : Nat → α) (i : Nat) (v : α) {j : Nat} (h : j ≠ i) : upd f i v j = f j := by simp [upd, h]

theorem upd_upd {α : Type} (f : Nat → α) (i : Nat) (v w : α) : upd (upd f i v) i w = upd f i w := by
  funext j; simp only [upd]; split <;> rfl

theorem upd_self {α : Type} (f : Nat → α) (i : Nat) : upd f i (f i) = f := by
  funext j; simp only [upd]; split
  · rename_i h; rw [h]
  · rfl

/-- The kernel's tables are those that the objects expect. -/
structure KInv (k : Kernel) (H : Nat → List Nat) (M : Nat → List (Nat × Nat))
    (F : List Fd) (G : List Mapping) : Prop where
  nums : (k.fds.map Fd.num).Nodup
  addrs : (k.maps.map Mapping.addr).Nodup
  fds : ∀ i, openBy k i = H i
  maps : ∀ i, mappedBy k i = M i
  ffds : foreignFds k = F
  fmaps : foreignMaps k = G

theorem KInv.names {k : Kernel} {H M F G} (h : KInv k H M F G) (ns : List Nat) : KInv { k with names := ns } H M F G :=
  ⟨h.nums, h.addrs, h.fds, h.maps, h.ffds, h.fmaps⟩

theorem find_num (fds : List Fd) (hn : (fds.map Fd.num).Nodup) {f : Fd} (hf : f ∈ fds) :
    fds.find? (fun g => g.num == f.num) = some f := by
  induction fds with
  | nil => cases hf
  | cons g fds ih =>
    simp only [List.map_cons, List.nodup_cons] at hn
    by_cases hg : g.num = f.num
    · rcases List.mem_cons.1 hf with rfl | hf'
      · simp
      · exact absurd (List.mem_map.2 ⟨f, hf', hg.symm⟩) hn.1
    · rcases List.mem_cons.1 hf with rfl | hf'
      · exact absurd rfl hg
      · rw [List.find?_cons_of_neg (by simpa using hg)]
        exact ih hn.2 hf'

theorem find_addr (maps : List Mapping) (hn : (maps.map Mapping.addr).Nodup) {f : Mapping} (hf : f ∈ maps) :
    maps.find? (fun g => g.addr == f.addr && g.len == f.len) = some f := by
  induction maps with
  | nil => cases hf
  | cons g maps ih =>
    simp only [List.map_cons, List.nodup_cons] at hn
    rcases List.mem_cons.1 hf with rfl | hf'
    · simp
    · have hg : g.addr ≠ f.addr := fun h => hn.1 (List.mem_map.2 ⟨f, hf', h.symm⟩)
      rw [List.find?_cons_of_neg (by simp [hg])]
      exact ih hn.2 hf'

theorem KInv.fdOwner {k : Kernel} {H M F G} (h : KInv k H M F G) {i n : Nat} (hn : n ∈ H i) : k.fdOwner n = some (some i) := by
  rw [← h.fds i] at hn
  obtain ⟨f, hf, rfl⟩ := List.mem_map.1 hn
  obtain ⟨hf, ho⟩ := List.mem_filter.1 hf
  rw [Kernel.fdOwner, find_num k.fds h.nums hf, Option.map_some, eq_of_beq ho]

theorem KInv.mapOwner {k : Kernel} {H M F G} (h : KInv k H M F G) {i a len : Nat} (hn : (a, len) ∈ M i) :
    k.mapOwner a len = some (some i) := by
  rw [← h.maps i] at hn
  obtain ⟨f, hf, he⟩ := List.mem_map.1 hn
  obtain ⟨hf, ho⟩ := List.mem_filter.1 hf
  injection he with h1 h2
  subst h1 h2
  rw [Kernel.mapOwner, find_addr k.maps h.addrs hf, Option.map_some, eq_of_beq ho]

theorem KInv.open_some {k : Kernel} {H M F G} (h : KInv k H M F G) {i : Nat} {c : Bool} {len : Nat} {choice : Option Nat} {k' : Kernel}
    {n : Nat} (ho : k.openFd (some i) c len choice = (k', some n)) : KInv k' (upd H i (n :: H i)) M F G := by
  cases choice with
  | none => simp [Kernel.openFd] at ho
  | some m =>
    simp only [Kernel.openFd] at ho
    split at ho
    · simp at ho
    · rename_i hm
      simp only [Prod.mk.injEq, Option.some.injEq] at ho
      obtain ⟨rfl, rfl⟩ := ho
      refine ⟨?_, h.addrs, ?_, h.maps, ?_, h.fmaps⟩
      · simp only [List.map_cons, List.nodup_cons]
        exact ⟨hm, h.nums⟩
      · intro j
        by_cases hj : j = i
        · subst hj
          have := h.fds j
          simp only [openBy] at this ⊢
          rw [upd_same, ← this, List.filter_cons_of_pos (by simp), List.map_cons]
        · rw [upd_other _ _ _ hj, ← h.fds j]
          simp only [openBy]
          rw [List.filter_cons_of_neg (by simpa using fun h => hj h.symm)]
      · rw [← h.ffds]
        simp only [foreignFds]
        rw [List.filter_cons_of_neg (by simp)]

theorem Kernel.open_none {k : Kernel} {w : Owner} {c : Bool} {len : Nat} {choice : Option Nat} {k' : Kernel}
    (ho : k.openFd w c len choice = (k', none)) : k' = k := by
  cases choice with
  | none => simp [Kernel.openFd] at ho; exact ho.symm
  | some m =>
    simp only [Kernel.openFd] at ho
    split at ho
    · simp at ho; exact ho.symm
    · simp at ho

theorem KInv.open_other {k : Kernel} {H M F G} (h : KInv k H M F G) (c : Bool) (len : Nat) (choice : Option Nat) :
    ∃ F', KInv (k.openFd none c len choice).1 H M F' G := by
  cases choice with
  | none => exact ⟨F, h⟩
  | some m =>
    simp only [Kernel.openFd]
    split
    · exact ⟨F, h⟩
    · rename_i hm
      refine ⟨_, ?_, h.addrs, ?_, h.maps, rfl, h.fmaps⟩
      · simp only [List.map_cons, List.nodup_cons]
        exact ⟨hm, h.nums⟩
      · intro j
        rw [← h.fds j]
        simp only [openBy]
        rw [List.filter_cons_of_neg (by simp)]

theorem filter_filter_swap {α : Type} (p q : α → Bool) (l : List α) : (l.filter p).filter q = (l.filter q).filter p := by
  rw [List.filter_filter, List.filter_filter]
  congr 1
  funext a
  exact Bool.and_comm _ _

theorem openBy_close (k : Kernel) (n j : Nat) : openBy (k.closeFd n) j = (openBy k j).filter (fun m => m != n) := by
  simp only [openBy, Kernel.closeFd]
  rw [filter_filter_swap, List.filter_map]
  rfl

theorem mappedBy_unmap (k : Kernel) (a len j : Nat) :
    mappedBy (k.unmap a len) j = (mappedBy k j).filter (fun m => !(m.1 == a && m.2 == len)) := by
  simp only [mappedBy, Kernel.unmap]
  rw [filter_filter_swap, List.filter_map]
  rfl

theorem not_held_other {k : Kernel} {H M F G} (h : KInv k H M F G) {n : Nat} {w : Owner} (hw : k.fdOwner n = some w) {j : Nat}
    (hj : w ≠ some j) : n ∉ H j := by
  intro hn
  rw [h.fdOwner hn] at hw
  injection hw with hw
  exact hj hw.symm

theorem not_mapped_other {k : Kernel} {H M F G} (h : KInv k H M F G) {a len : Nat} {w : Owner} (hw : k.mapOwner a len = some w) {j : Nat}
    (hj : w ≠ some j) : (a, len) ∉ M j := by
  intro hn
  rw [h.mapOwner hn] at hw
  injection hw with hw
  exact hj hw.symm

theorem filter_ne_self {l : List Nat} {n : Nat} (h : n ∉ l) : l.filter (fun m => m != n) = l := by
  rw [List.filter_eq_self]
  intro m hm
  simp only [bne_iff_ne, ne_eq]
  rintro rfl
  exact h hm

theorem filter_pair_self {l : List (Nat × Nat)} {a len : Nat} (h : (a, len) ∉ l) :
    l.filter (fun m => !(m.1 == a && m.2 == len)) = l := by
  rw [List.filter_eq_self]
  rintro ⟨b, m⟩ hm
  simp only [Bool.not_eq_true', Bool.and_eq_false_iff, beq_eq_false_iff_ne, ne_eq]
  by_cases hb : b = a
  · right
    rintro rfl
    exact h (hb ▸ hm)
  · exact .inl hb

theorem KInv.close {k : Kernel} {H M F G} (h : KInv k H M F G) {i n : Nat} (hn : H i = [n]) : KInv (k.closeFd n) (upd H i []) M F G := by
  have hown := h.fdOwner (i := i) (n := n) (by simp [hn])
  refine ⟨?_, h.addrs, ?_, h.maps, ?_, h.fmaps⟩
  · exact h.nums.sublist (List.filter_sublist.map _)
  · intro j
    rw [openBy_close, h.fds j]
    by_cases hj : j = i
    · subst hj
      rw [upd_same, hn]
      simp
    · rw [upd_other _ _ _ hj]
      exact filter_ne_self (not_held_other h hown (by simpa using fun h => hj h.symm))
  · rw [← h.ffds]
    simp only [foreignFds, Kernel.closeFd]
    rw [filter_filter_swap, List.filter_eq_self]
    intro f hf
    obtain ⟨hf, ho⟩ := List.mem_filter.1 hf
    simp only [bne_iff_ne, ne_eq]
    rintro rfl
    rw [Kernel.fdOwner, find_num k.fds h.nums hf, Option.map_some, eq_of_beq ho] at hown
    cases hown

theorem KInv.close_other {k : Kernel} {H M F G} (h : KInv k H M F G) {n : Nat} (hn : k.fdOwner n = some none) :
    ∃ F', KInv (k.closeFd n) H M F' G := by
  refine ⟨_, ?_, h.addrs, ?_, h.maps, rfl, h.fmaps⟩
  · exact h.nums.sublist (List.filter_sublist.map _)
  · intro j
    rw [openBy_close, h.fds j]
    exact filter_ne_self (not_held_other h hn (by simp))

theorem KInv.truncate {k : Kernel} {H M F G} (h : KInv k H M F G) {i n : Nat} (hn : n ∈ H i) (len : Nat) :
    KInv (k.truncate n len) H M F G := by
  have hnum : ((k.fds.map (fun f => if f.num = n then { f with len := len } else f)).map Fd.num) = k.fds.map Fd.num := by
    rw [List.map_map]
    apply List.map_congr_left
    intro f _
    simp only [Function.comp]
    split <;> rfl
  refine ⟨?_, h.addrs, ?_, h.maps, ?_, h.fmaps⟩
  · simp only [Kernel.truncate]
    rw [hnum]
    exact h.nums
  · intro j
    rw [← h.fds j]
    simp only [openBy, Kernel.truncate, List.filter_map, List.map_map]
    have e1 : ((fun f : Fd => f.owner == some j) ∘ fun f => if f.num = n then { f with len := len } else f) =
        fun f => f.owner == some j := by
      funext f
      simp only [Function.comp]
      split <;> rfl
    rw [e1]
    apply List.map_congr_left
    intro f _
    simp only [Function.comp]
    split <;> rfl
  · have hown := h.fdOwner hn
    rw [← h.ffds]
    simp only [foreignFds, Kernel.truncate, List.filter_map]
    have e1 : ((fun f : Fd => f.owner == none) ∘ fun f => if f.num = n then { f with len := len } else f) =
        fun f => f.owner == none := by
      funext f
      simp only [Function.comp]
      split <;> rfl
    rw [e1]
    conv => rhs; rw [← List.map_id (List.filter _ _)]
    apply List.map_congr_left
    intro f hf
    obtain ⟨hf, ho⟩ := List.mem_filter.1 hf
    rw [if_neg]
    · rfl
    · rintro rfl
      rw [Kernel.fdOwner, find_num k.fds h.nums hf, Option.map_some, eq_of_beq ho] at hown
      cases hown

theorem KInv.map_some {k : Kernel} {H M F G} (h : KInv k H M F G) {i : Nat} {len : Nat} {choice : Option Nat} {k' : Kernel}
    {a : Nat} (ho : k.map (some i) len choice = (k', some a)) : KInv k' H (upd M i ((a, len) :: M i)) F G := by
  cases choice with
  | none => simp [Kernel.map] at ho
  | some m =>
    simp only [Kernel.map] at ho
    split at ho
    · simp at ho
    · rename_i hm
      simp only [Prod.mk.injEq, Option.some.injEq] at ho
      obtain ⟨rfl, rfl⟩ := ho
      refine ⟨h.nums, ?_, h.fds, ?_, h.ffds, ?_⟩
      · simp only [List.map_cons, List.nodup_cons]
        exact ⟨hm, h.addrs⟩
      · intro j
        by_cases hj : j = i
        · subst hj
          have := h.maps j
          simp only [mappedBy] at this ⊢
          rw [upd_same, ← this, List.filter_cons_of_pos (by simp), List.map_cons]
        · rw [upd_other _ _ _ hj, ← h.maps j]
          simp only [mappedBy]
          rw [List.filter_cons_of_neg (by simpa using fun h => hj h.symm)]
      · rw [← h.fmaps]
        simp only [foreignMaps]
        rw [List.filter_cons_of_neg (by simp)]

theorem Kernel.map_none {k : Kernel} {w : Owner} {len : Nat} {choice : Option Nat} {k' : Kernel}
    (ho : k.map w len choice = (k', none)) : k' = k := by
  cases choice with
  | none => simp [Kernel.map] at ho; exact ho.symm
  | some m =>
    simp only [Kernel.map] at ho
    split at ho
    · simp at ho; exact ho.symm
    · simp at ho

theorem KInv.map_other {k : Kernel} {H M F G} (h : KInv k H M F G) (len : Nat) (choice : Option Nat) :
    ∃ G', KInv (k.map none len choice).1 H M F G' := by
  cases choice with
  | none => exact ⟨G, h⟩
  | some m =>
    simp only [Kernel.map]
    split
    · exact ⟨G, h⟩
    · rename_i hm
      refine ⟨_, h.nums, ?_, h.fds, ?_, h.ffds, rfl⟩
      · simp only [List.map_cons, List.nodup_cons]
        exact ⟨hm, h.addrs⟩
      · intro j
        rw [← h.maps j]
        simp only [mappedBy]
        rw [List.filter_cons_of_neg (by simp)]

theorem KInv.unmap {k : Kernel} {H M F G} (h : KInv k H M F G) {i a len : Nat} (hn : M i = [(a, len)]) :
    KInv (k.unmap a len) H (upd M i []) F G := by
  have hown := h.mapOwner (i := i) (a := a) (len := len) (by simp [hn])
  refine ⟨h.nums, ?_, h.fds, ?_, h.ffds, ?_⟩
  · exact h.addrs.sublist (List.filter_sublist.map _)
  · intro j
    rw [mappedBy_unmap, h.maps j]
    by_cases hj : j = i
    · subst hj
      rw [upd_same, hn]
      simp
    · rw [upd_other _ _ _ hj]
      exact filter_pair_self (not_mapped_other h hown (by simpa using fun h => hj h.symm))
  · rw [← h.fmaps]
    simp only [foreignMaps, Kernel.unmap]
    rw [filter_filter_swap, List.filter_eq_self]
    intro f hf
    obtain ⟨hf, ho⟩ := List.mem_filter.1 hf
    cases hb : (f.addr == a && f.len == len)
    · rfl
    · rw [Bool.and_eq_true, beq_iff_eq, beq_iff_eq] at hb
      obtain ⟨rfl, rfl⟩ := hb
      rw [Kernel.mapOwner, find_addr k.maps h.addrs hf, Option.map_some, eq_of_beq ho] at hown
      cases hown

theorem KInv.unmap_other {k : Kernel} {H M F G} (h : KInv k H M F G) {a len : Nat} (hn : k.mapOwner a len = some none) :
    ∃ G', KInv (k.unmap a len) H M F G' := by
  refine ⟨_, h.nums, ?_, h.fds, ?_, h.ffds, rfl⟩
  · exact h.addrs.sublist (List.filter_sublist.map _)
  · intro j
    rw [mappedBy_unmap, h.maps j]
    exact filter_pair_self (not_mapped_other h hn (by simp))

theorem KInv.remap_some {k : Kernel} {H M F G} (h : KInv k H M F G) {i a old len : Nat} (hn : M i = [(a, old)]) {choice : Option Nat}
    {k' : Kernel} {b : Nat} (ho : k.remap (some i) a old len choice = (k', some b)) :
    KInv k' H (upd M i [(b, len)]) F G := by
  cases choice with
  | none => simp [Kernel.remap] at ho
  | some m =>
    have e : k.remap (some i) a old len (some m) =
        if m ∈ (k.unmap a old).maps.map Mapping.addr then (k, none)
        else ((k.unmap a old).map (some i) len (some m)) := by
      simp only [Kernel.remap, Kernel.map]
      split <;> rfl
    rw [e] at ho
    split at ho
    · simp at ho
    · have := (h.unmap hn).map_some ho
      rwa [upd_same, upd_upd] at this

theorem Kernel.remap_none {k : Kernel} {w : Owner} {a old len : Nat} {choice : Option Nat} {k' : Kernel}
    (ho : k.remap w a old len choice = (k', none)) : k' = k := by
  cases choice with
  | none => simp [Kernel.remap] at ho; exact ho.symm
  | some m =>
    simp only [Kernel.remap] at ho
    split at ho
    · simp at ho; exact ho.symm
    · simp at ho

/-! ## States -/

/-- The calls that were made were about what their objects had opened. -/
def UsedOk (used : List (Nat × Option Owner)) : Prop := ∀ u ∈ used, u.2 = some (some u.1)

/-- The tables are those that are expected, and the calls were right. -/
structure OsTables (s : OsState) (H : Nat → List Nat) (M : Nat → List (Nat × Nat))
    (F : List Fd) (G : List Mapping) : Prop where
  kernel : KInv s.kernel H M F G
  used : UsedOk s.used

/-- The invariant between calls. -/
structure OsInv (s : OsState) (F : List Fd) (G : List Mapping) : Prop where
  tables : OsTables s (fun i => heldFds (s.objs i)) (fun i => heldMaps (s.objs i)) F G
  shape : ∀ i fd data size, s.objs i = some (.backed fd data size) → fd.isSome ∧ (data = none ↔ size = 0)

theorem OsTables.useFd {s : OsState} {H M F G} (h : OsTables s H M F G) {i n : Nat} (hn : n ∈ H i) : OsTables (s.useFd i n) H M F G := by
  refine ⟨h.kernel, ?_⟩
  intro u hu
  rcases List.mem_cons.1 hu with rfl | hu
  · exact h.kernel.fdOwner hn
  · exact h.used u hu

theorem OsTables.useMap {s : OsState} {H M F G} (h : OsTables s H M F G) {i a len : Nat} (hn : (a, len) ∈ M i) : OsTables (s.useMap i a len) H M F G := by
  refine ⟨h.kernel, ?_⟩
  intro u hu
  rcases List.mem_cons.1 hu with rfl | hu
  · exact h.kernel.mapOwner hn
  · exact h.used u hu

theorem OsTables.withKernel {s : OsState} {H M F G H' M' F' G'} (h : OsTables s H M F G) {k : Kernel} (hk : KInv k H' M' F' G') :
    OsTables { s with kernel := k } H' M' F' G' := ⟨hk, h.used⟩

theorem OsTables.closeFd {s : OsState} {H M F G} (h : OsTables s H M F G) {i n : Nat} (hn : H i = [n]) :
    OsTables (s.closeFd i (some n)) (upd H i []) M F G :=
  (h.useFd (i := i) (n := n) (by simp [hn])).withKernel (h.kernel.close hn)

theorem OsTables.closeOpt {s : OsState} {H M F G} (h : OsTables s H M F G) {i : Nat} {fd : Option Nat} (hn : H i = fd.toList) :
    OsTables (s.closeFd i fd) (upd H i []) M F G := by
  cases fd with
  | none =>
    have : upd H i [] = H := by
      have := upd_self H i
      rwa [hn] at this
    rw [this]
    exact h
  | some n => exact h.closeFd hn

theorem OsTables.unmapOpt {s : OsState} {H M F G} (h : OsTables s H M F G) {i : Nat} {data : Option Nat} {size : Nat}
    (hn : M i = data.toList.map (fun a => (a, size))) : OsTables (s.unmap i data size) H (upd M i []) F G := by
  cases data with
  | none =>
    have : upd M i [] = M := by
      have := upd_self M i
      rwa [hn] at this
    rw [this]
    exact h
  | some a => exact (h.useMap (i := i) (a := a) (len := size) (by simp [hn])).withKernel (h.kernel.unmap hn)

@[simp] theorem closeFd_objs (s : OsState) (i : Nat) (fd : Option Nat) : (s.closeFd i fd).objs = s.objs := by
  cases fd <;> rfl

@[simp] theorem unmap_objs (s : OsState) (i : Nat) (data : Option Nat) (size : Nat) : (s.unmap i data size).objs = s.objs := by
  cases data <;> rfl

/-- An object is put in its place. -/
theorem OsTables.put {s s' : OsState} {H M F G} (hs : OsTables s' H M F G) (hobjs : s'.objs = s.objs) (hi : OsInv s F G) {i : Nat} {o : Option OsObj}
    (hH : H = upd (fun j => heldFds (s.objs j)) i (heldFds o)) (hM : M = upd (fun j => heldMaps (s.objs j)) i (heldMaps o))
    (hsh : ∀ fd data size, o = some (.backed fd data size) → fd.isSome ∧ (data = none ↔ size = 0)) : OsInv (s'.put i o) F G := by
  refine ⟨⟨?_, hs.used⟩, ?_⟩
  · have e1 : (fun j => heldFds ((s'.put i o).objs j)) = H := by
      rw [hH]
      funext j
      simp only [OsState.put, upd, hobjs]
      split <;> rfl
    have e2 : (fun j => heldMaps ((s'.put i o).objs j)) = M := by
      rw [hM]
      funext j
      simp only [OsState.put, upd, hobjs]
      split <;> rfl
    rw [e1, e2]
    exact hs.kernel
  · intro j fd data size hj
    simp only [OsState.put, hobjs] at hj
    split at hj
    · exact hsh fd data size hj
    · exact hi.shape j fd data size hj

/-- Nothing has changed for the objects. -/
theorem OsTables.same {s s' : OsState} {H M F G} (hs : OsTables s' H M F G) (hobjs : s'.objs = s.objs) (hi : OsInv s F G)
    (hH : H = fun j => heldFds (s.objs j)) (hM : M = fun j => heldMaps (s.objs j)) : OsInv s' F G := by
  refine ⟨?_, ?_⟩
  · rw [hobjs]
    subst hH hM
    exact hs
  · rw [hobjs]
    exact hi.shape

theorem OsInv.held_none {s : OsState} {i : Nat} (hn : (s.objs i).isSome = false) :
    heldFds (s.objs i) = [] ∧ heldMaps (s.objs i) = [] := by
  cases h : s.objs i with
  | none => exact ⟨rfl, rfl⟩
  | some o => rw [h] at hn; cases hn

theorem upd_nil_self {α : Type} {f : Nat → List α} {i : Nat} (h : f i = []) : upd f i [] = f := by
  have := upd_self f i
  rwa [h] at this

theorem OsInv.newStream {s : OsState} {F G} (h : OsInv s F G) {i : Nat} (hi : (s.objs i).isSome = false) (len : Nat) (fd : Option Nat) :
    OsInv (s.newStream i len fd).1 F G := by
  obtain ⟨h0, h1⟩ := OsInv.held_none hi
  unfold OsState.newStream
  rcases ho : s.kernel.openFd (some i) true len fd with ⟨k, _ | n⟩
  · rw [Kernel.open_none ho]
    exact h
  · have hk := h.tables.kernel.open_some ho
    simp only [h0] at hk
    refine ((h.tables.withKernel hk).useFd (by simp [upd_same])).put (s := s) rfl h rfl ?_ (by rintro _ _ _ ⟨⟩)
    exact (upd_nil_self (f := fun j => heldMaps (s.objs j)) h1).symm

theorem OsInv.newMapped {s : OsState} {F G} (h : OsInv s F G) {i : Nat} (hi : (s.objs i).isSome = false) (len : Nat) (fd : Option Nat)
    (stat : Bool) (addr : Option Nat) : OsInv (s.newMapped i len fd stat addr).1 F G := by
  obtain ⟨h0, h1⟩ := OsInv.held_none hi
  unfold OsState.newMapped
  rcases ho : s.kernel.openFd (some i) true len fd with ⟨k, _ | n⟩
  · rw [Kernel.open_none ho]
    exact h
  · have hk := h.tables.kernel.open_some ho
    simp only [h0] at hk
    have hs1 := (h.tables.withKernel hk).useFd (i := i) (n := n) (by simp [upd_same])
    have hback : upd (upd (fun j => heldFds (s.objs j)) i [n]) i [] = fun j => heldFds (s.objs j) := by
      rw [upd_upd]
      exact upd_nil_self (f := fun j => heldFds (s.objs j)) h0
    simp only
    split
    · split
      · refine (hs1.closeFd (by simp [upd_same])).put (s := s) rfl h ?_ ?_ (by rintro _ _ _ ⟨⟩)
        · rw [upd_upd]; rfl
        · exact (upd_nil_self (f := fun j => heldMaps (s.objs j)) h1).symm
      · have hs2 := hs1.useFd (i := i) (n := n) (by simp [upd_same])
        split
        · rename_i k2 hm
          have := Kernel.map_none hm
          subst this
          exact (hs2.closeFd (i := i) (n := n) (by simp [upd_same])).same (s := s) rfl h hback rfl
        · rename_i k2 a hm
          have hk2 := hs2.kernel.map_some hm
          simp only [h1] at hk2
          refine ((hs2.withKernel hk2).closeFd (i := i) (n := n) (by simp [upd_same])).put (s := s)
            (o := some (.mapped (some a) len)) rfl h ?_ rfl (by rintro _ _ _ ⟨⟩)
          rw [upd_upd]; rfl
    · exact (hs1.closeFd (i := i) (n := n) (by simp [upd_same])).same (s := s) rfl h hback rfl

theorem OsInv.newBacked {s : OsState} {F G} (h : OsInv s F G) {i : Nat} (hi : (s.objs i).isSome = false) (size : Nat) (fd : Option Nat)
    (trunc unlink : Bool) (addr : Option Nat) : OsInv (s.newBacked i size fd trunc unlink addr).1 F G := by
  obtain ⟨h0, h1⟩ := OsInv.held_none hi
  unfold OsState.newBacked
  rcases ho : s.kernel.openFd (some i) false 0 fd with ⟨k, _ | n⟩
  · rw [Kernel.open_none ho]
    exact h
  · have hk := h.tables.kernel.open_some ho
    simp only [h0] at hk
    have hs1 := (h.tables.withKernel (hk.names (i :: k.names))).useFd (i := i) (n := n) (by simp [upd_same])
    have hback : upd (upd (fun j => heldFds (s.objs j)) i [n]) i [] = fun j => heldFds (s.objs j) := by
      rw [upd_upd]
      exact upd_nil_self (f := fun j => heldFds (s.objs j)) h0
    simp only
    split
    · have hs2 := hs1.withKernel ((hs1.kernel.truncate (i := i) (n := n) (by simp [upd_same]) size).names
        (if unlink = true then ((({ k with names := i :: k.names } : Kernel)).truncate n size).names.erase i
          else ((({ k with names := i :: k.names } : Kernel)).truncate n size).names))
      split
      · rename_i hz
        refine hs2.put (s := s) (o := some (.backed (some n) none 0)) rfl h rfl ?_ ?_
        · exact (upd_nil_self (f := fun j => heldMaps (s.objs j)) h1).symm
        · rintro _ _ _ ⟨⟩; simp
      · rename_i hz
        have hs3 := hs2.useFd (i := i) (n := n) (by simp [upd_same])
        split
        · rename_i k2 hm
          have := Kernel.map_none hm
          subst this
          exact (hs3.closeFd (i := i) (n := n) (by simp [upd_same])).same (s := s) rfl h hback rfl
        · rename_i k2 a hm
          have hk2 := hs3.kernel.map_some hm
          simp only [h1] at hk2
          refine (hs3.withKernel hk2).put (s := s) rfl h rfl rfl ?_
          rintro _ _ _ ⟨⟩
          simp [hz]
    · exact (hs1.closeFd (i := i) (n := n) (by simp [upd_same])).same (s := s) rfl h hback rfl

theorem upd_eq_self {α : Type} {f : Nat → α} {i : Nat} {v : α} (h : f i = v) : f = upd f i v := by
  subst h
  exact (upd_self f i).symm

theorem OsInv.resize {s : OsState} {F G} (h : OsInv s F G) {i n : Nat} {data : Option Nat} {old : Nat}
    (hi : s.objs i = some (.backed (some n) data old)) (size : Nat) (trunc : Bool) (addr : Option Nat) :
    OsInv (s.resizeBacked i n data old size trunc addr).1 F G := by
  have hH : (fun j => heldFds (s.objs j)) i = [n] := by simp only [hi, heldFds]
  have hM : (fun j => heldMaps (s.objs j)) i = data.toList.map (fun a => (a, old)) := by
    simp only [hi]
    cases data <;> rfl
  have hshape := (h.shape i _ _ _ hi).2
  unfold OsState.resizeBacked
  split
  · exact h
  · rename_i hne
    have hs1 := h.tables.useFd (i := i) (n := n) (by simp [hi, heldFds])
    simp only
    split
    · have hs2 := hs1.withKernel (hs1.kernel.truncate (i := i) (n := n) (by simp [hi, heldFds]) size)
      split
      · rename_i hz
        have hd : data = none := hshape.2 hz
        subst hd
        have hs3 := hs2.useFd (i := i) (n := n) (by simp [hi, heldFds])
        split
        · rename_i k2 hm
          have := Kernel.map_none hm
          subst this
          exact hs3.same (s := s) rfl h rfl rfl
        · rename_i k2 a hm
          have hk2 := hs3.kernel.map_some hm
          simp only [hi, heldMaps] at hk2
          refine (hs3.withKernel hk2).put (s := s) (o := some (.backed (some n) (some a) size)) rfl h (upd_eq_self hH) rfl ?_
          rintro _ _ _ ⟨⟩
          simp
          omega
      · rename_i hz
        split
        · refine (hs2.unmapOpt hM).put (s := s) (o := some (.backed (some n) none 0)) (by simp; rfl) h (upd_eq_self hH) rfl ?_
          rintro _ _ _ ⟨⟩
          simp
        · rename_i hz'
          cases data with
          | none => exact absurd (hshape.1 rfl) hz
          | some a =>
            simp only
            have hs3 := hs2.useMap (i := i) (a := a) (len := old) (by simp [hi, heldMaps])
            split
            · rename_i k2 hm
              have := Kernel.remap_none hm
              subst this
              exact hs3.same (s := s) rfl h rfl rfl
            · rename_i k2 b hm
              have hk2 := hs3.kernel.remap_some hM hm
              refine (hs3.withKernel hk2).put (s := s) (o := some (.backed (some n) (some b) size)) rfl h (upd_eq_self hH) rfl ?_
              rintro _ _ _ ⟨⟩
              simpa using hz'
    · exact hs1.same (s := s) rfl h rfl rfl

theorem OsInv.destroy {s : OsState} {F G} (h : OsInv s F G) {i : Nat} {o : OsObj} (hi : s.objs i = some o) : OsInv (s.destroy i o) F G := by
  cases o with
  | stream fd =>
    have hH : (fun j => heldFds (s.objs j)) i = fd.toList := by simp only [hi]; cases fd <;> rfl
    have hM : (fun j => heldMaps (s.objs j)) i = [] := by simp only [hi, heldMaps]
    exact (h.tables.closeOpt hH).put (s := s) (o := none) (by simp) h rfl (upd_eq_self hM) (by rintro _ _ _ ⟨⟩)
  | mapped data size =>
    have hH : (fun j => heldFds (s.objs j)) i = [] := by simp only [hi, heldFds]
    have hM : (fun j => heldMaps (s.objs j)) i = data.toList.map (fun a => (a, size)) := by simp only [hi]; cases data <;> rfl
    exact (h.tables.unmapOpt hM).put (s := s) (o := none) (by simp) h (upd_eq_self hH) rfl (by rintro _ _ _ ⟨⟩)
  | backed fd data size =>
    have hH : (fun j => heldFds (s.objs j)) i = fd.toList := by simp only [hi]; cases fd <;> rfl
    have hM : (fun j => heldMaps (s.objs j)) i = data.toList.map (fun a => (a, size)) := by simp only [hi]; cases data <;> rfl
    exact ((h.tables.unmapOpt hM).closeOpt hH).put (s := s) (o := none) (by simp) h rfl rfl (by rintro _ _ _ ⟨⟩)

/-- What the rest of the process does, not the library. -/
theorem OsInv.step_lib {s : OsState} {F G} (h : OsInv s F G) (a : OsAct) (ha : a.ofLibrary = true) : OsInv (ostep s a).1 F G := by
  cases a with
  | newStream i len fd =>
    simp only [ostep]
    split
    · exact h
    · rename_i hi; exact h.newStream (by simpa using hi) len fd
  | newMapped i len fd stat addr =>
    simp only [ostep]
    split
    · exact h
    · rename_i hi; exact h.newMapped (by simpa using hi) len fd stat addr
  | newBacked i size fd trunc unlink addr =>
    simp only [ostep]
    split
    · exact h
    · rename_i hi; exact h.newBacked (by simpa using hi) size fd trunc unlink addr
  | call i =>
    simp only [ostep]
    split
    · rename_i fd hi
      cases fd with
      | none => exact h
      | some n => exact (h.tables.useFd (i := i) (n := n) (by simp [hi, heldFds])).same (s := s) rfl h rfl rfl
    · exact h
  | close i =>
    simp only [ostep]
    split
    · rename_i fd hi
      have hH : (fun j => heldFds (s.objs j)) i = fd.toList := by simp only [hi]; cases fd <;> rfl
      have hM : (fun j => heldMaps (s.objs j)) i = [] := by simp only [hi, heldMaps]
      exact (h.tables.closeOpt hH).put (s := s) (o := some (.stream none)) (by simp) h rfl (upd_eq_self hM)
        (by rintro _ _ _ ⟨⟩)
    · exact h
  | resize i size trunc addr =>
    simp only [ostep]
    split
    · rename_i n data old hi; exact h.resize hi size trunc addr
    · exact h
  | destroy i =>
    simp only [ostep]
    split
    · rename_i o hi; exact h.destroy hi
    · exact h
  | otherOpen n cloexec len => cases ha
  | otherClose n => cases ha
  | otherMap a len => cases ha
  | otherUnmap a len => cases ha

theorem OsInv.foreign {s : OsState} {F G} (h : OsInv s F G) {k : Kernel} {F' G'}
    (hk : KInv k (fun i => heldFds (s.objs i)) (fun i => heldMaps (s.objs i)) F' G') : OsInv { s with kernel := k } F' G' :=
  ⟨⟨hk, h.tables.used⟩, h.shape⟩

theorem OsInv.step {s : OsState} {F G} (h : OsInv s F G) (a : OsAct) : ∃ F' G', OsInv (ostep s a).1 F' G' := by
  cases ha : a.ofLibrary
  · cases a with
    | otherOpen n cloexec len =>
      obtain ⟨F', hk⟩ := h.tables.kernel.open_other cloexec len (some n)
      exact ⟨F', G, h.foreign hk⟩
    | otherClose n =>
      simp only [ostep]
      split
      · rename_i ho
        obtain ⟨F', hk⟩ := h.tables.kernel.close_other ho
        exact ⟨F', G, h.foreign hk⟩
      · exact ⟨F, G, h⟩
    | otherMap a len =>
      obtain ⟨G', hk⟩ := h.tables.kernel.map_other len (some a)
      exact ⟨F, G', h.foreign hk⟩
    | otherUnmap a len =>
      simp only [ostep]
      split
      · rename_i ho
        obtain ⟨G', hk⟩ := h.tables.kernel.unmap_other ho
        exact ⟨F, G', h.foreign hk⟩
      · exact ⟨F, G, h⟩
    | _ => cases ha
  · exact ⟨F, G, h.step_lib a ha⟩

theorem OsInv.init : OsInv OsState.init [] [] :=
  ⟨⟨⟨List.nodup_nil, List.nodup_nil, fun _ => rfl, fun _ => rfl, rfl, rfl⟩, by intro u hu; cases hu⟩,
    by intro _ _ _ _ h; cases h⟩

theorem OsInv.run : ∀ (as : List OsAct) {s : OsState} {F G}, OsInv s F G → ∃ F' G', OsInv (orun s as) F' G'
  | [], _, F, G, h => ⟨F, G, h⟩
  | a :: as, _, _, _, h => by
    obtain ⟨F', G', h'⟩ := h.step a
    exact OsInv.run as h'

/-! ## The length of the files -/

/-- The file behind a descriptor is at least so long. -/
def FileLen (k : Kernel) (n len : Nat) : Prop := ∃ f ∈ k.fds, f.num = n ∧ len ≤ f.len

theorem FileLen.mono {k : Kernel} {n len len' : Nat} (h : FileLen k n len) (hl : len' ≤ len) : FileLen k n len' := by
  obtain ⟨f, hf, h1, h2⟩ := h
  exact ⟨f, hf, h1, Nat.le_trans hl h2⟩

theorem FileLen.congr {k k' : Kernel} {n len : Nat} (h : FileLen k n len) (hk : k'.fds = k.fds) : FileLen k' n len := by
  rw [FileLen, hk]
  exact h

theorem FileLen.open {k : Kernel} {n len : Nat} (h : FileLen k n len) (w : Owner) (c : Bool) (l : Nat) (choice : Option Nat) :
    FileLen (k.openFd w c l choice).1 n len := by
  cases choice with
  | none => exact h
  | some m =>
    simp only [Kernel.openFd]
    split
    · exact h
    · obtain ⟨f, hf, h1⟩ := h
      exact ⟨f, List.mem_cons_of_mem _ hf, h1⟩

theorem FileLen.close {k : Kernel} {n len m : Nat} (h : FileLen k n len) (hm : m ≠ n) : FileLen (k.closeFd m) n len := by
  obtain ⟨f, hf, h1, h2⟩ := h
  refine ⟨f, List.mem_filter.2 ⟨hf, ?_⟩, h1, h2⟩
  simp only [bne_iff_ne, ne_eq, h1]
  exact fun h => hm h.symm

theorem FileLen.truncate {k : Kernel} {n len m : Nat} (h : FileLen k n len) (hm : m ≠ n) (l : Nat) :
    FileLen (k.truncate m l) n len := by
  obtain ⟨f, hf, h1, h2⟩ := h
  refine ⟨f, List.mem_map.2 ⟨f, hf, ?_⟩, h1, h2⟩
  rw [if_neg]
  rw [h1]
  exact fun h => hm h.symm

theorem FileLen.truncate_same {k : Kernel} {n len : Nat} (h : FileLen k n len) (l : Nat) : FileLen (k.truncate n l) n l := by
  obtain ⟨f, hf, h1, h2⟩ := h
  exact ⟨{ f with len := l }, List.mem_map.2 ⟨f, hf, by rw [if_pos h1]⟩, h1, Nat.le_refl _⟩

theorem Kernel.map_fds (k : Kernel) (w : Owner) (len : Nat) (choice : Option Nat) : (k.map w len choice).1.fds = k.fds := by
  cases choice with
  | none => rfl
  | some m => simp only [Kernel.map]; split <;> rfl

theorem Kernel.map_names (k : Kernel) (w : Owner) (len : Nat) (choice : Option Nat) : (k.map w len choice).1.names = k.names := by
  cases choice with
  | none => rfl
  | some m => simp only [Kernel.map]; split <;> rfl

theorem Kernel.remap_fds (k : Kernel) (w : Owner) (a old len : Nat) (choice : Option Nat) :
    (k.remap w a old len choice).1.fds = k.fds := by
  cases choice with
  | none => rfl
  | some m => simp only [Kernel.remap]; split <;> rfl

theorem Kernel.remap_names (k : Kernel) (w : Owner) (a old len : Nat) (choice : Option Nat) :
    (k.remap w a old len choice).1.names = k.names := by
  cases choice with
  | none => rfl
  | some m => simp only [Kernel.remap]; split <;> rfl

theorem Kernel.open_names (k : Kernel) (w : Owner) (c : Bool) (len : Nat) (choice : Option Nat) :
    (k.openFd w c len choice).1.names = k.names := by
  cases choice with
  | none => rfl
  | some m => simp only [Kernel.openFd]; split <;> rfl

/-- The descriptors after a call of the library, seen through a property of descriptors that do not belong to its object. -/
theorem step_fileLen {s : OsState} {F G} (h : OsInv s F G) (a : OsAct) {j n len : Nat} (hn : n ∈ heldFds (s.objs j))
    (hl : FileLen s.kernel n len) (hne : ∀ size trunc addr, a ≠ .resize j size trunc addr)
    (hd : a ≠ .destroy j) (hc : a ≠ .close j) : FileLen (ostep s a).1.kernel n len := by
  have other : ∀ {i m : Nat}, i ≠ j → m ∈ heldFds (s.objs i) → m ≠ n := by
    rintro i m hij hm rfl
    have h1 := h.tables.kernel.fdOwner hn
    have h2 := h.tables.kernel.fdOwner hm
    rw [h1] at h2
    injection h2 with h2
    injection h2 with h2
    exact hij h2.symm
  have fresh : ∀ {w c l choice k m}, s.kernel.openFd w c l choice = (k, some m) → m ≠ n := by
    intro w c l choice k m ho
    cases choice with
    | none => simp [Kernel.openFd] at ho
    | some q =>
      simp only [Kernel.openFd] at ho
      split at ho
      · simp at ho
      · rename_i hq
        simp only [Prod.mk.injEq, Option.some.injEq] at ho
        obtain ⟨_, rfl⟩ := ho
        rintro rfl
        obtain ⟨f, hf, h1, _⟩ := hl
        exact hq (List.mem_map.2 ⟨f, hf, h1⟩)
  cases a with
  | newStream i l fd =>
    simp only [ostep]
    split
    · exact hl
    · unfold OsState.newStream
      have := hl.open (some i) true l fd
      rcases ho : s.kernel.openFd (some i) true l fd with ⟨k, _ | m⟩ <;> rw [ho] at this <;> exact this
  | newMapped i l fd stat addr =>
    simp only [ostep]
    split
    · exact hl
    · unfold OsState.newMapped
      have := hl.open (some i) true l fd
      rcases ho : s.kernel.openFd (some i) true l fd with ⟨k, _ | m⟩ <;> rw [ho] at this
      · exact this
      · simp only
        have hm := fresh ho
        split
        · split
          · exact this.close hm
          · split
            · rename_i k2 hk
              refine FileLen.close ?_ hm
              have e := Kernel.map_fds k (some i) l addr
              simp only [OsState.useFd] at hk
              rw [hk] at e
              exact this.congr e
            · rename_i k2 b hk
              refine FileLen.close ?_ hm
              have e := Kernel.map_fds k (some i) l addr
              simp only [OsState.useFd] at hk
              rw [hk] at e
              exact this.congr e
        · exact this.close hm
  | newBacked i size fd trunc unlink addr =>
    simp only [ostep]
    split
    · exact hl
    · unfold OsState.newBacked
      have := hl.open (some i) false 0 fd
      rcases ho : s.kernel.openFd (some i) false 0 fd with ⟨k, _ | m⟩ <;> rw [ho] at this
      · exact this
      · simp only
        have hm := fresh ho
        split
        · have h2 := this.truncate hm size
          split
          · exact h2
          · split
            · rename_i k2 hk
              refine FileLen.close ?_ hm
              have e := congrArg (fun r => (Prod.fst r).fds) hk
              simp only [Kernel.map_fds] at e
              exact h2.congr e.symm
            · rename_i k2 b hk
              have e := congrArg (fun r => (Prod.fst r).fds) hk
              simp only [Kernel.map_fds] at e
              exact h2.congr e.symm
        · exact this.close hm
  | call i =>
    simp only [ostep]
    split
    · rename_i fd hi
      cases fd <;> exact hl
    · exact hl
  | close i =>
    have hij : i ≠ j := by rintro rfl; exact hc rfl
    simp only [ostep]
    split
    · rename_i fd hi
      cases fd with
      | none => exact hl
      | some m => exact hl.close (other hij (by simp [hi, heldFds]))
    · exact hl
  | resize i size trunc addr =>
    have hij : i ≠ j := by rintro rfl; exact hne _ _ _ rfl
    simp only [ostep]
    split
    · rename_i m data old hi
      have hm := other hij (m := m) (by simp [hi, heldFds])
      unfold OsState.resizeBacked
      split
      · exact hl
      · simp only
        split
        · have h2 := hl.truncate hm size
          split
          · split
            · rename_i k2 hk
              have e := congrArg (fun r => (Prod.fst r).fds) hk
              simp only [Kernel.map_fds] at e
              exact h2.congr e.symm
            · rename_i k2 b hk
              have e := congrArg (fun r => (Prod.fst r).fds) hk
              simp only [Kernel.map_fds] at e
              exact h2.congr e.symm
          · split
            · cases data <;> exact h2
            · cases data with
              | none => exact h2
              | some b =>
                simp only
                split
                · rename_i k2 hk
                  have e := congrArg (fun r => (Prod.fst r).fds) hk
                  simp only [Kernel.remap_fds] at e
                  exact h2.congr e.symm
                · rename_i k2 c hk
                  have e := congrArg (fun r => (Prod.fst r).fds) hk
                  simp only [Kernel.remap_fds] at e
                  exact h2.congr e.symm
        · exact hl
    · exact hl
  | destroy i =>
    have hij : i ≠ j := by rintro rfl; exact hd rfl
    simp only [ostep]
    split
    · rename_i o hi
      cases o with
      | stream fd =>
        cases fd with
        | none => exact hl
        | some m => exact hl.close (other hij (by simp [hi, heldFds]))
      | mapped data size => cases data <;> exact hl
      | backed fd data size =>
        cases fd with
        | none => cases data <;> exact hl
        | some m => cases data <;> exact hl.close (other hij (by simp [hi, heldFds]))
    · exact hl
  | otherOpen m c l => exact hl.open none c l (some m)
  | otherClose m =>
    simp only [ostep]
    split
    · rename_i ho
      refine hl.close ?_
      rintro rfl
      rw [h.tables.kernel.fdOwner hn] at ho
      cases ho
    · exact hl
  | otherMap b l => exact hl.congr (Kernel.map_fds _ _ _ _)
  | otherUnmap b l =>
    simp only [ostep]
    split <;> exact hl

/-- The object that an action is about. -/
def OsAct.about : OsAct → Option Nat
  | .newStream i _ _ => some i
  | .newMapped i _ _ _ _ => some i
  | .newBacked i _ _ _ _ _ => some i
  | .call i => some i
  | .close i => some i
  | .resize i _ _ _ => some i
  | .destroy i => some i
  | _ => none

theorem put_other (s : OsState) (i : Nat) (o : Option OsObj) {j : Nat} (h : j ≠ i) : (s.put i o).objs j = s.objs j := by
  simp [OsState.put, h]

theorem put_same (s : OsState) (i : Nat) (o : Option OsObj) : (s.put i o).objs i = o := by simp [OsState.put]

/-- What an action does to the table of objects. -/
theorem ostep_objs (s : OsState) (a : OsAct) :
    (ostep s a).1.objs = s.objs ∨ ∃ i o, a.about = some i ∧ (ostep s a).1.objs = (s.put i o).objs := by
  cases a with
  | newStream i l fd =>
    simp only [ostep]
    split
    · exact .inl rfl
    · unfold OsState.newStream
      rcases ho : s.kernel.openFd (some i) true l fd with ⟨k, _ | m⟩
      · exact .inl rfl
      · exact .inr ⟨i, _, rfl, rfl⟩
  | newMapped i l fd stat addr =>
    simp only [ostep]
    split
    · exact .inl rfl
    · unfold OsState.newMapped
      rcases ho : s.kernel.openFd (some i) true l fd with ⟨k, _ | m⟩
      · exact .inl rfl
      · simp only
        split
        · split
          · exact .inr ⟨i, _, rfl, rfl⟩
          · split
            · exact .inl rfl
            · exact .inr ⟨i, _, rfl, rfl⟩
        · exact .inl rfl
  | newBacked i size fd trunc unlink addr =>
    simp only [ostep]
    split
    · exact .inl rfl
    · unfold OsState.newBacked
      rcases ho : s.kernel.openFd (some i) false 0 fd with ⟨k, _ | m⟩
      · exact .inl rfl
      · simp only
        split
        · split
          · exact .inr ⟨i, _, rfl, rfl⟩
          · split
            · exact .inl rfl
            · exact .inr ⟨i, _, rfl, rfl⟩
        · exact .inl rfl
  | call i =>
    simp only [ostep]
    split
    · rename_i fd hi
      cases fd <;> exact .inl rfl
    · exact .inl rfl
  | close i =>
    simp only [ostep]
    split
    · rename_i fd hi
      cases fd <;> exact .inr ⟨i, _, rfl, rfl⟩
    · exact .inl rfl
  | resize i size trunc addr =>
    simp only [ostep]
    split
    · rename_i m data old hi
      unfold OsState.resizeBacked
      split
      · exact .inl rfl
      · simp only
        split
        · split
          · split
            · exact .inl rfl
            · exact .inr ⟨i, _, rfl, rfl⟩
          · split
            · cases data <;> exact .inr ⟨i, _, rfl, rfl⟩
            · cases data with
              | none => exact .inl rfl
              | some b =>
                simp only
                split
                · exact .inl rfl
                · exact .inr ⟨i, _, rfl, rfl⟩
        · exact .inl rfl
    · exact .inl rfl
  | destroy i =>
    simp only [ostep]
    split
    · rename_i o hi
      refine .inr ⟨i, none, rfl, ?_⟩
      cases o with
      | stream fd => cases fd <;> rfl
      | mapped data size => cases data <;> rfl
      | backed fd data size => cases fd <;> cases data <;> rfl
    · exact .inl rfl
  | otherOpen m c l => exact .inl rfl
  | otherClose m =>
    simp only [ostep]
    split <;> exact .inl rfl
  | otherMap b l => exact .inl rfl
  | otherUnmap b l =>
    simp only [ostep]
    split <;> exact .inl rfl

theorem ostep_objs_other (s : OsState) (a : OsAct) {j : Nat} (hj : a.about ≠ some j) : (ostep s a).1.objs j = s.objs j := by
  rcases ostep_objs s a with h | ⟨i, o, h1, h2⟩
  · rw [h]
  · rw [h2, put_other]
    rintro rfl
    exact hj h1

/-- The files are as long as the blocks say. -/
def LenInv (s : OsState) : Prop := ∀ j n data size, s.objs j = some (.backed (some n) data size) → FileLen s.kernel n size

theorem newBacked_len {s : OsState} {i size : Nat} {fd : Option Nat} {trunc unlink : Bool} {addr : Option Nat} {n : Nat}
    {data : Option Nat} {size' : Nat} (hi : s.objs i = none)
    (h : (s.newBacked i size fd trunc unlink addr).1.objs i = some (.backed (some n) data size')) :
    FileLen (s.newBacked i size fd trunc unlink addr).1.kernel n size' := by
  unfold OsState.newBacked at h ⊢
  rcases ho : s.kernel.openFd (some i) false 0 fd with ⟨k, _ | m⟩
  · rw [ho] at h
    simp [hi] at h
  · rw [ho] at h
    simp only at h ⊢
    have hk : FileLen k m 0 := by
      cases fd with
      | none => simp [Kernel.openFd] at ho
      | some q =>
        simp only [Kernel.openFd] at ho
        split at ho
        · simp at ho
        · simp only [Prod.mk.injEq, Option.some.injEq] at ho
          obtain ⟨rfl, rfl⟩ := ho
          exact ⟨_, List.mem_cons_self, rfl, Nat.le_refl _⟩
    have h2 := hk.truncate_same size
    split
    · rename_i ht
      rw [if_pos ht] at h
      split
      · rename_i hz
        rw [if_pos hz, put_same] at h
        cases h
        exact h2.mono (Nat.zero_le _)
      · rename_i hz
        rw [if_neg hz] at h
        split
        · rename_i k2 hk
          rw [hk] at h
          exact absurd (h.symm.trans (show _ = none from hi)) (by simp)
        · rename_i k2 b hk
          rw [hk] at h
          simp only [put_same] at h
          cases h
          have e := congrArg (fun r => (Prod.fst r).fds) hk
          simp only [Kernel.map_fds] at e
          exact h2.congr e.symm
    · rename_i ht
      rw [if_neg ht] at h
      exact absurd (h.symm.trans (show _ = none from hi)) (by simp)

theorem resize_len {s : OsState} {i n : Nat} {data : Option Nat} {old size : Nat} {trunc : Bool} {addr : Option Nat}
    (hi : s.objs i = some (.backed (some n) data old)) (hl : FileLen s.kernel n old)
    (hshape : data = none ↔ old = 0)
    (hok : (s.resizeBacked i n data old size trunc addr).2 = .error → trunc = true → old ≤ size)
    {n' : Nat} {data' : Option Nat} {size' : Nat}
    (h : (s.resizeBacked i n data old size trunc addr).1.objs i = some (.backed (some n') data' size')) :
    FileLen (s.resizeBacked i n data old size trunc addr).1.kernel n' size' := by
  unfold OsState.resizeBacked at h hok ⊢
  have hsame : ∀ {o}, s.objs i = some (OsObj.backed (some n') data' o) → n' = n ∧ o = old := by
    intro o ho
    rw [hi] at ho
    cases ho
    exact ⟨rfl, rfl⟩
  split
  · rename_i hz
    rw [if_pos hz] at h
    obtain ⟨rfl, rfl⟩ := hsame h
    exact hl
  · rename_i hz
    rw [if_neg hz] at h hok
    simp only at h hok ⊢
    split
    · rename_i ht
      rw [if_pos ht] at h hok
      have h2 := hl.truncate_same size
      split
      · rename_i h0
        rw [if_pos h0] at h hok
        split
        · rename_i k2 hk
          rw [hk] at h hok
          obtain ⟨rfl, rfl⟩ := hsame h
          have e := congrArg (fun r => (Prod.fst r).fds) hk
          simp only [Kernel.map_fds] at e
          exact (h2.congr e.symm).mono (hok rfl ht)
        · rename_i k2 b hk
          rw [hk] at h
          simp only [put_same] at h
          cases h
          have e := congrArg (fun r => (Prod.fst r).fds) hk
          simp only [Kernel.map_fds] at e
          exact h2.congr e.symm
      · rename_i h0
        rw [if_neg h0] at h hok
        split
        · rename_i h3
          rw [if_pos h3, put_same] at h
          cases h
          cases data <;> exact h2.mono (Nat.zero_le _)
        · rename_i h3
          rw [if_neg h3] at h hok
          cases data with
          | none => exact absurd (hshape.1 rfl) h0
          | some b =>
            simp only at h hok ⊢
            split
            · rename_i k2 hk
              rw [hk] at h hok
              obtain ⟨rfl, rfl⟩ := hsame h
              have e := congrArg (fun r => (Prod.fst r).fds) hk
              simp only [Kernel.remap_fds] at e
              exact (h2.congr e.symm).mono (hok rfl ht)
            · rename_i k2 c hk
              rw [hk] at h
              simp only [put_same] at h
              cases h
              have e := congrArg (fun r => (Prod.fst r).fds) hk
              simp only [Kernel.remap_fds] at e
              exact h2.congr e.symm
    · rename_i ht
      rw [if_neg ht] at h
      obtain ⟨rfl, rfl⟩ := hsame h
      exact hl

/-- The kind of an object does not change. -/
theorem step_backed {s : OsState} (a : OsAct) {j n : Nat} {data : Option Nat} {size : Nat}
    (h : (ostep s a).1.objs j = some (.backed (some n) data size)) :
    (∃ data' size', s.objs j = some (.backed (some n) data' size')) ∨
    (s.objs j = none ∧ ∃ size fd trunc unlink addr, a = .newBacked j size fd trunc unlink addr) := by
  by_cases hj : a.about = some j
  · cases a with
    | newStream i l fd =>
      cases hj
      simp only [ostep] at h
      split at h
      · exact .inl ⟨_, _, h⟩
      · unfold OsState.newStream at h
        rcases ho : s.kernel.openFd (some j) true l fd with ⟨k, _ | m⟩ <;> rw [ho] at h
        · exact .inl ⟨_, _, h⟩
        · simp [put_same] at h
    | newMapped i l fd stat addr =>
      cases hj
      simp only [ostep] at h
      split at h
      · exact .inl ⟨_, _, h⟩
      · unfold OsState.newMapped at h
        rcases ho : s.kernel.openFd (some j) true l fd with ⟨k, _ | m⟩ <;> rw [ho] at h
        · exact .inl ⟨_, _, h⟩
        · simp only at h
          split at h
          · split at h
            · simp [put_same] at h
            · split at h
              · exact .inl ⟨_, _, h⟩
              · simp [put_same] at h
          · exact .inl ⟨_, _, h⟩
    | newBacked i size fd trunc unlink addr =>
      cases hj
      cases ho : s.objs j with
      | none => exact .inr ⟨rfl, _, _, _, _, _, rfl⟩
      | some o =>
        simp only [ostep, ho, Option.isSome_some, if_true] at h
        cases h
        exact .inl ⟨_, _, rfl⟩
    | call i =>
      cases hj
      simp only [ostep] at h
      split at h
      · rename_i fd hi
        cases fd <;> exact .inl ⟨_, _, h⟩
      · exact .inl ⟨_, _, h⟩
    | close i =>
      cases hj
      simp only [ostep] at h
      split at h
      · simp [put_same] at h
      · exact .inl ⟨_, _, h⟩
    | resize i size trunc addr =>
      cases hj
      simp only [ostep] at h
      split at h
      · rename_i m data' old hi
        suffices m = n from .inl ⟨_, _, this ▸ hi⟩
        have keep : ∀ {x}, s.objs j = some (OsObj.backed (some n) data x) → m = n := by
          intro x hx
          rw [hi] at hx
          cases hx
          rfl
        unfold OsState.resizeBacked at h
        split at h
        · exact keep h
        · simp only at h
          split at h
          · split at h
            · split at h
              · exact keep h
              · simp only [put_same] at h
                cases h
                rfl
            · split at h
              · simp only [put_same] at h
                cases h
                rfl
              · cases data' with
                | none => exact keep h
                | some b =>
                  simp only at h
                  split at h
                  · exact keep h
                  · simp only [put_same] at h
                    cases h
                    rfl
          · exact keep h
      · exact .inl ⟨_, _, h⟩
    | destroy i =>
      cases hj
      simp only [ostep] at h
      split at h
      · rename_i o hi
        cases o <;> simp [OsState.destroy, put_same] at h
      · exact .inl ⟨_, _, h⟩
    | _ => cases hj
  · rw [ostep_objs_other s a hj] at h
    exact .inl ⟨_, _, h⟩

theorem LenInv.step {s : OsState} {F G} (h : OsInv s F G) (hl : LenInv s) (a : OsAct)
    (hok : ∀ i size addr n data old, a = .resize i size true addr → s.objs i = some (.backed (some n) data old) →
      (ostep s a).2 = .error → old ≤ size) : LenInv (ostep s a).1 := by
  intro j n data size hj
  rcases step_backed a hj with ⟨data', size', ho⟩ | ⟨h0, size1, fd, trunc, unlink, addr, rfl⟩
  · have hn : n ∈ heldFds (s.objs j) := by simp [ho, heldFds]
    by_cases hr : ∃ size trunc addr, a = .resize j size trunc addr
    · obtain ⟨size1, trunc, addr, rfl⟩ := hr
      simp only [ostep, ho] at hj hok ⊢
      refine resize_len ho (hl j _ _ _ ho) (h.shape j _ _ _ ho).2 ?_ hj
      rintro h1 rfl
      exact hok j _ _ _ _ _ rfl ho h1
    · by_cases hd : a = .destroy j
      · subst hd
        simp [ostep, ho, OsState.destroy, put_same] at hj
      · by_cases hc : a = .close j
        · subst hc
          simp only [ostep, ho] at hj ⊢
          cases hj
          exact hl j _ _ _ ho
        · have hs : (ostep s a).1.objs j = s.objs j := by
            by_cases hab : a.about = some j
            · cases a with
              | resize i _ _ _ => cases hab; exact absurd ⟨_, _, _, rfl⟩ hr
              | destroy i => cases hab; exact absurd rfl hd
              | close i => cases hab; exact absurd rfl hc
              | newStream i _ _ => cases hab; simp [ostep, ho]
              | newMapped i _ _ _ _ => cases hab; simp [ostep, ho]
              | newBacked i _ _ _ _ _ => cases hab; simp [ostep, ho]
              | call i => cases hab; simp [ostep, ho]
              | _ => cases hab
            · exact ostep_objs_other s a hab
          rw [hs, ho] at hj
          cases hj
          exact step_fileLen h a hn (hl j _ _ _ ho) (fun _ _ _ he => hr ⟨_, _, _, he⟩) hd hc
  · simp only [ostep, h0, Option.isSome_none, Bool.false_eq_true, if_false] at hj ⊢
    exact newBacked_len h0 hj

theorem LenInv.run : ∀ (as : List OsAct) {s : OsState} {F G}, OsInv s F G → LenInv s → NoFailedShrink s as → LenInv (orun s as)
  | [], _, _, _, _, hl, _ => hl
  | a :: as, _, _, _, h, hl, hn => by
    obtain ⟨F', G', h'⟩ := h.step a
    exact LenInv.run as h' (hl.step h a hn.1) hn.2

/-! ## Descriptors that a new program inherits -/

theorem all_open {k : Kernel} {Q : Fd → Prop} (h : ∀ f ∈ k.fds, Q f) {w : Owner} {c : Bool} {l : Nat} {choice : Option Nat}
    (hq : ∀ n, Q ⟨n, w, c, l⟩) : ∀ f ∈ (k.openFd w c l choice).1.fds, Q f := by
  cases choice with
  | none => exact h
  | some m =>
    simp only [Kernel.openFd]
    split
    · exact h
    · intro f hf
      rcases List.mem_cons.1 hf with rfl | hf
      · exact hq m
      · exact h f hf

theorem all_close {k : Kernel} {Q : Fd → Prop} (h : ∀ f ∈ k.fds, Q f) (n : Nat) : ∀ f ∈ (k.closeFd n).fds, Q f :=
  fun f hf => h f (List.mem_filter.1 hf).1

theorem all_truncate {k : Kernel} {Q : Fd → Prop} (h : ∀ f ∈ k.fds, Q f) (hq : ∀ f l, Q f → Q { f with len := l }) (n l : Nat) :
    ∀ f ∈ (k.truncate n l).fds, Q f := by
  intro f hf
  obtain ⟨g, hg, rfl⟩ := List.mem_map.1 hf
  split
  · exact hq g l (h g hg)
  · exact h g hg

/-- A property that the descriptors have, whatever the lengths of their files, and that new ones have, is kept. -/
theorem all_step {s : OsState} {Q : Fd → Prop} (h : ∀ f ∈ s.kernel.fds, Q f) (hq : ∀ f l, Q f → Q { f with len := l })
    (a : OsAct) (hc : ∀ n w l, Q ⟨n, w, true, l⟩) (hn : ∀ n c l, Q ⟨n, none, c, l⟩)
    (hb : ∀ i size fd trunc unlink addr, a = .newBacked i size fd trunc unlink addr → s.objs i = none →
      ∀ n l, Q ⟨n, some i, false, l⟩) : ∀ f ∈ (ostep s a).1.kernel.fds, Q f := by
  cases a with
  | newStream i l fd =>
    simp only [ostep]
    split
    · exact h
    · unfold OsState.newStream
      have := all_open h (w := some i) (c := true) (l := l) (choice := fd) (fun n => hc n _ _)
      rcases ho : s.kernel.openFd (some i) true l fd with ⟨k, _ | m⟩ <;> rw [ho] at this <;> exact this
  | newMapped i l fd stat addr =>
    simp only [ostep]
    split
    · exact h
    · unfold OsState.newMapped
      have := all_open h (w := some i) (c := true) (l := l) (choice := fd) (fun n => hc n _ _)
      rcases ho : s.kernel.openFd (some i) true l fd with ⟨k, _ | m⟩ <;> rw [ho] at this
      · exact this
      · simp only
        split
        · split
          · exact all_close this m
          · split
            · rename_i k2 hk
              have e := congrArg (fun r => (Prod.fst r).fds) hk
              simp only [Kernel.map_fds] at e
              refine all_close ?_ m
              rw [← e]
              exact this
            · rename_i k2 b hk
              have e := congrArg (fun r => (Prod.fst r).fds) hk
              simp only [Kernel.map_fds] at e
              refine all_close ?_ m
              rw [← e]
              exact this
        · exact all_close this m
  | newBacked i size fd trunc unlink addr =>
    simp only [ostep]
    split
    · exact h
    · rename_i hi
      have hi : s.objs i = none := by simpa using hi
      unfold OsState.newBacked
      have := all_open h (w := some i) (c := false) (l := 0) (choice := fd) (fun n => hb i _ _ _ _ _ rfl hi n 0)
      rcases ho : s.kernel.openFd (some i) false 0 fd with ⟨k, _ | m⟩ <;> rw [ho] at this
      · exact this
      · simp only
        split
        · have h2 := all_truncate this hq m size
          split
          · exact h2
          · split
            · rename_i k2 hk
              have e := congrArg (fun r => (Prod.fst r).fds) hk
              simp only [Kernel.map_fds] at e
              refine all_close ?_ m
              rw [← e]
              exact h2
            · rename_i k2 b hk
              have e := congrArg (fun r => (Prod.fst r).fds) hk
              simp only [Kernel.map_fds] at e
              show ∀ f ∈ k2.fds, Q f
              rw [← e]
              exact h2
        · exact all_close this m
  | call i =>
    simp only [ostep]
    split
    · rename_i fd hi
      cases fd <;> exact h
    · exact h
  | close i =>
    simp only [ostep]
    split
    · rename_i fd hi
      cases fd with
      | none => exact h
      | some m => exact all_close h m
    · exact h
  | resize i size trunc addr =>
    simp only [ostep]
    split
    · rename_i m data old hi
      unfold OsState.resizeBacked
      split
      · exact h
      · simp only
        split
        · have h2 := all_truncate h hq m size
          split
          · split
            · rename_i k2 hk
              have e := congrArg (fun r => (Prod.fst r).fds) hk
              simp only [Kernel.map_fds] at e
              show ∀ f ∈ k2.fds, Q f
              rw [← e]
              exact h2
            · rename_i k2 b hk
              have e := congrArg (fun r => (Prod.fst r).fds) hk
              simp only [Kernel.map_fds] at e
              show ∀ f ∈ k2.fds, Q f
              rw [← e]
              exact h2
          · split
            · cases data <;> exact h2
            · cases data with
              | none => exact h2
              | some b =>
                simp only
                split
                · rename_i k2 hk
                  have e := congrArg (fun r => (Prod.fst r).fds) hk
                  simp only [Kernel.remap_fds] at e
                  show ∀ f ∈ k2.fds, Q f
                  rw [← e]
                  exact h2
                · rename_i k2 c hk
                  have e := congrArg (fun r => (Prod.fst r).fds) hk
                  simp only [Kernel.remap_fds] at e
                  show ∀ f ∈ k2.fds, Q f
                  rw [← e]
                  exact h2
        · exact h
    · exact h
  | destroy i =>
    simp only [ostep]
    split
    · rename_i o hi
      cases o with
      | stream fd =>
        cases fd with
        | none => exact h
        | some m => exact all_close h m
      | mapped data size => cases data <;> exact h
      | backed fd data size =>
        cases fd with
        | none => cases data <;> exact h
        | some m => cases data <;> exact all_close h m
    · exact h
  | otherOpen m c l => exact all_open h (fun n => hn n c l)
  | otherClose m =>
    simp only [ostep]
    split
    · exact all_close h m
    · exact h
  | otherMap b l =>
    show ∀ f ∈ (s.kernel.map none l (some b)).1.fds, Q f
    rw [Kernel.map_fds]
    exact h
  | otherUnmap b l =>
    simp only [ostep]
    split <;> exact h

/-- A descriptor of an object that a new program would inherit belongs to a file-backed block. -/
def ExecInv (s : OsState) : Prop :=
  ∀ f ∈ s.kernel.fds, f.cloexec = false → ∀ i, f.owner = some i → ∃ data size, s.objs i = some (.backed (some f.num) data size)

theorem ExecInv.step {s : OsState} {F G} (h : OsInv s F G) (he : ExecInv s) (a : OsAct) : ExecInv (ostep s a).1 := by
  obtain ⟨F', G', h'⟩ := h.step a
  -- where the descriptor comes from
  have key := all_step (s := s) (Q := fun f => f.cloexec = false → ∀ i, f.owner = some i →
      (∃ n data size, s.objs i = some (.backed (some n) data size)) ∨
      (∃ size fd trunc unlink addr, a = .newBacked i size fd trunc unlink addr ∧ s.objs i = none))
    (fun f hf hc i hi => by
      obtain ⟨d, z, hd⟩ := he f hf hc i hi
      exact .inl ⟨_, _, _, hd⟩)
    (fun f l hf => hf) a (fun n w l hc => by cases hc) (fun n c l _ i hi => by cases hi)
    (fun i size fd trunc unlink addr ha h0 n l _ j hj => by
      cases hj
      exact .inr ⟨_, _, _, _, _, ha, h0⟩)
  intro f hf hc i hi
  have hheld : f.num ∈ heldFds ((ostep s a).1.objs i) := by
    have := h'.tables.kernel.fds i
    rw [← this]
    exact List.mem_map.2 ⟨f, List.mem_filter.2 ⟨hf, by simp [hi]⟩, rfl⟩
  -- the kind of the object
  have hkind : ∀ n, (ostep s a).1.objs i ≠ some (.stream (some n)) := by
    intro n hs
    rcases key f hf hc i hi with ⟨m, d, z, ho⟩ | ⟨z, fd, t, u, ad, rfl, h0⟩
    · by_cases hab : a.about = some i
      · cases a with
        | newStream j _ _ => cases hab; simp [ostep, ho] at hs
        | newMapped j _ _ _ _ => cases hab; simp [ostep, ho] at hs
        | newBacked j _ _ _ _ _ => cases hab; simp [ostep, ho] at hs
        | call j => cases hab; simp [ostep, ho] at hs
        | close j => cases hab; simp [ostep, ho] at hs
        | destroy j => cases hab; simp [ostep, ho, OsState.destroy, put_same] at hs
        | resize j size trunc addr =>
          cases hab
          simp only [ostep, ho] at hs
          unfold OsState.resizeBacked at hs
          split at hs
          · simp [ho] at hs
          · simp only at hs
            split at hs
            · split at hs
              · split at hs
                · simp [OsState.useFd, ho] at hs
                · simp [put_same] at hs
              · split at hs
                · simp [put_same] at hs
                · cases d with
                  | none => simp [OsState.useFd, ho] at hs
                  | some b =>
                    simp only at hs
                    split at hs
                    · simp [OsState.useFd, OsState.useMap, ho] at hs
                    · simp [put_same] at hs
            · simp [OsState.useFd, ho] at hs
        | _ => cases hab
      · rw [ostep_objs_other s a hab, ho] at hs
        cases hs
    · simp only [ostep, h0, Option.isSome_none, Bool.false_eq_true, if_false] at hs
      unfold OsState.newBacked at hs
      rcases ho : s.kernel.openFd (some i) false 0 fd with ⟨k, _ | m⟩ <;> rw [ho] at hs
      · simp [h0] at hs
      · simp only at hs
        split at hs
        · split at hs
          · simp [put_same] at hs
          · split at hs
            · simp [OsState.useFd, OsState.closeFd, h0] at hs
            · simp [put_same] at hs
        · simp [OsState.useFd, OsState.closeFd, h0] at hs
  cases ho : (ostep s a).1.objs i with
  | none => rw [ho] at hheld; cases hheld
  | some o =>
    rw [ho] at hheld
    cases o with
    | stream fd =>
      cases fd with
      | none => cases hheld
      | some n => exact absurd ho (hkind n)
    | mapped d z => cases hheld
    | backed fd d z =>
      cases fd with
      | none => cases hheld
      | some n =>
        simp only [heldFds, List.mem_singleton] at hheld
        rw [hheld]
        exact ⟨d, z, rfl⟩

theorem ExecInv.run : ∀ (as : List OsAct) {s : OsState} {F G}, OsInv s F G → ExecInv s → ExecInv (orun s as)
  | [], _, _, _, _, he => he
  | a :: as, _, _, _, h, he => by
    obtain ⟨F', G', h'⟩ := h.step a
    exact ExecInv.run as h' (he.step h a)

/-! ## Names of temporary files -/

@[simp] theorem closeFd_names (s : OsState) (i : Nat) (fd : Option Nat) : (s.closeFd i fd).kernel.names = s.kernel.names := by
  cases fd <;> rfl

@[simp] theorem unmap_names (s : OsState) (i : Nat) (data : Option Nat) (size : Nat) :
    (s.unmap i data size).kernel.names = s.kernel.names := by
  cases data <;> rfl

/-- What an action does to the names. -/
theorem step_names (s : OsState) (a : OsAct) : (ostep s a).1.kernel.names = s.kernel.names ∨
    ∃ i size n trunc unlink addr, a = .newBacked i size (some n) trunc unlink addr ∧ ¬(trunc = true ∧ unlink = true) ∧
      (ostep s a).1.kernel.names = i :: s.kernel.names := by
  cases a with
  | newStream i l fd =>
    left
    simp only [ostep]
    split
    · rfl
    · unfold OsState.newStream
      have := Kernel.open_names s.kernel (some i) true l fd
      rcases ho : s.kernel.openFd (some i) true l fd with ⟨k, _ | m⟩ <;> rw [ho] at this <;> exact this
  | newMapped i l fd stat addr =>
    left
    simp only [ostep]
    split
    · rfl
    · unfold OsState.newMapped
      have := Kernel.open_names s.kernel (some i) true l fd
      rcases ho : s.kernel.openFd (some i) true l fd with ⟨k, _ | m⟩ <;> rw [ho] at this
      · exact this
      · simp only
        split
        · split
          · exact this
          · split
            · rename_i k2 hk
              have e := congrArg (fun r => (Prod.fst r).names) hk
              simp only [Kernel.map_names] at e
              exact e.symm.trans this
            · rename_i k2 b hk
              have e := congrArg (fun r => (Prod.fst r).names) hk
              simp only [Kernel.map_names] at e
              exact e.symm.trans this
        · exact this
  | newBacked i size fd trunc unlink addr =>
    simp only [ostep]
    split
    · exact .inl rfl
    · unfold OsState.newBacked
      have := Kernel.open_names s.kernel (some i) false 0 fd
      rcases ho : s.kernel.openFd (some i) false 0 fd with ⟨k, _ | m⟩ <;> rw [ho] at this
      · exact .inl this
      · cases fd with
        | none => simp [Kernel.openFd] at ho
        | some q =>
          simp only at this ⊢
          split
          · rename_i ht
            have key : (if unlink = true then (i :: k.names).erase i else i :: k.names) =
                if unlink = true then s.kernel.names else i :: s.kernel.names := by
              rw [this]; simp
            cases unlink with
            | true =>
              left
              split
              · exact key
              · split
                · rename_i k2 hk
                  have e := congrArg (fun r => (Prod.fst r).names) hk
                  simp only [Kernel.map_names] at e
                  exact e.symm.trans key
                · rename_i k2 b hk
                  have e := congrArg (fun r => (Prod.fst r).names) hk
                  simp only [Kernel.map_names] at e
                  exact e.symm.trans key
            | false =>
              right
              refine ⟨i, size, q, trunc, false, addr, rfl, by simp, ?_⟩
              split
              · exact key
              · split
                · rename_i k2 hk
                  have e := congrArg (fun r => (Prod.fst r).names) hk
                  simp only [Kernel.map_names] at e
                  exact e.symm.trans key
                · rename_i k2 b hk
                  have e := congrArg (fun r => (Prod.fst r).names) hk
                  simp only [Kernel.map_names] at e
                  exact e.symm.trans key
          · rename_i ht
            refine .inr ⟨i, size, q, trunc, unlink, addr, rfl, fun h => ht h.1, ?_⟩
            exact congrArg (List.cons i) this
  | call i =>
    left
    simp only [ostep]
    split
    · rename_i fd hi
      cases fd <;> rfl
    · rfl
  | close i =>
    left
    simp only [ostep]
    split
    · rename_i fd hi
      cases fd <;> rfl
    · rfl
  | resize i size trunc addr =>
    left
    simp only [ostep]
    split
    · rename_i m data old hi
      unfold OsState.resizeBacked
      split
      · rfl
      · simp only
        split
        · split
          · split
            · rename_i k2 hk
              have e := congrArg (fun r => (Prod.fst r).names) hk
              simp only [Kernel.map_names] at e
              exact e.symm
            · rename_i k2 b hk
              have e := congrArg (fun r => (Prod.fst r).names) hk
              simp only [Kernel.map_names] at e
              exact e.symm
          · split
            · cases data <;> rfl
            · cases data with
              | none => rfl
              | some b =>
                simp only
                split
                · rename_i k2 hk
                  have e := congrArg (fun r => (Prod.fst r).names) hk
                  simp only [Kernel.remap_names] at e
                  exact e.symm
                · rename_i k2 c hk
                  have e := congrArg (fun r => (Prod.fst r).names) hk
                  simp only [Kernel.remap_names] at e
                  exact e.symm
        · rfl
    · rfl
  | destroy i =>
    left
    simp only [ostep]
    split
    · rename_i o hi
      cases o with
      | stream fd => cases fd <;> rfl
      | mapped data size => cases data <;> rfl
      | backed fd data size => cases fd <;> cases data <;> rfl
    · rfl
  | otherOpen m c l => exact .inl (Kernel.open_names _ _ _ _ _)
  | otherClose m =>
    left
    simp only [ostep]
    split <;> rfl
  | otherMap b l => exact .inl (Kernel.map_names _ _ _ _)
  | otherUnmap b l =>
    left
    simp only [ostep]
    split <;> rfl

/-- Names are never taken away later. -/
theorem names_kept : ∀ (as : List OsAct) (s : OsState) {i : Nat}, i ∈ s.kernel.names → i ∈ (orun s as).kernel.names
  | [], _, _, h => h
  | a :: as, s, i, h => by
    refine names_kept as _ ?_
    rcases step_names s a with e | ⟨_, _, _, _, _, _, _, _, e⟩ <;> rw [e]
    · exact h
    · exact List.mem_cons_of_mem _ h

end Mlio
