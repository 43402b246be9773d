import Verif.Proofs.OsResources

/-!
# C86: what the library holds of the operating system

For every history of constructions, calls and destructions of file streams, mapped files and file-backed blocks, among
whatever the rest of the process opens, closes, maps and unmaps, and for every answer of the kernel to every system call.
-/

namespace Mlio

open Spec

/-- Every object has open exactly the descriptor, and mapped exactly the memory, that it uses: nothing is lost when a call
fails half-way, nothing is there twice. -/
theorem C86_held (as : List OsAct) (i : Nat) :
    openBy (orun .init as).kernel i = heldFds ((orun .init as).objs i) ∧
    mappedBy (orun .init as).kernel i = heldMaps ((orun .init as).objs i) := by
  obtain ⟨F, G, h⟩ := OsInv.init.run as
  exact ⟨h.tables.kernel.fds i, h.tables.kernel.maps i⟩

/-- An object that is gone, or that could not be made, leaves nothing open and nothing mapped. -/
theorem C86_released (as : List OsAct) (i : Nat) (h : (orun .init as).objs i = none) :
    openBy (orun .init as).kernel i = [] ∧ mappedBy (orun .init as).kernel i = [] := by
  have := C86_held as i
  rw [h] at this
  exact this

/-- Every system call of an object is about a descriptor or a mapping that this object has made and that is still there.  So
nothing is closed or unmapped twice, and nothing of somebody else's is read, closed, cut off or unmapped, although the kernel
gives the numbers and addresses that were given back to others. -/
theorem C86_own_only (as : List OsAct) : ∀ u ∈ (orun .init as).used, u.2 = some (some u.1) := by
  obtain ⟨F, G, h⟩ := OsInv.init.run as
  exact h.tables.used

/-- What the library does leaves the descriptors and the mappings of the rest of the process as they are. -/
theorem C86_foreign (as : List OsAct) (a : OsAct) (ha : a.ofLibrary = true) :
    foreignFds (ostep (orun .init as) a).1.kernel = foreignFds (orun .init as).kernel ∧
    foreignMaps (ostep (orun .init as) a).1.kernel = foreignMaps (orun .init as).kernel := by
  obtain ⟨F, G, h⟩ := OsInv.init.run as
  have h' := h.step_lib a ha
  rw [h.tables.kernel.ffds, h.tables.kernel.fmaps]
  exact ⟨h'.tables.kernel.ffds, h'.tables.kernel.fmaps⟩

/-- A call that throws leaves the objects as they are; a constructor that throws makes none. -/
theorem C86_throws (s : OsState) (a : OsAct) (h : (ostep s a).2 = .error) : (ostep s a).1.objs = s.objs := by
  cases a with
  | newStream i l fd =>
    simp only [ostep] at h ⊢
    split at h <;> rename_i h0
    · rw [if_pos h0]
    · rw [if_neg h0]
      unfold OsState.newStream at h ⊢
      rcases ho : s.kernel.openFd (some i) true l fd with ⟨k, _ | m⟩
      · rfl
      · rw [ho] at h; cases h
  | newMapped i l fd stat addr =>
    simp only [ostep] at h ⊢
    split at h <;> rename_i h0
    · rw [if_pos h0]
    · rw [if_neg h0]
      unfold OsState.newMapped at h ⊢
      rcases ho : s.kernel.openFd (some i) true l fd with ⟨k, _ | m⟩
      · rfl
      · rw [ho] at h
        simp only at h ⊢
        split at h <;> rename_i h1
        · rw [if_pos h1]
          split at h <;> rename_i h2
          · cases h
          · rw [if_neg h2]
            split at h <;> rename_i hk
            · rfl
            · cases h
        · rw [if_neg h1]; rfl
  | newBacked i size fd trunc unlink addr =>
    simp only [ostep] at h ⊢
    split at h <;> rename_i h0
    · rw [if_pos h0]
    · rw [if_neg h0]
      unfold OsState.newBacked at h ⊢
      rcases ho : s.kernel.openFd (some i) false 0 fd with ⟨k, _ | m⟩
      · rfl
      · rw [ho] at h
        simp only at h ⊢
        split at h <;> rename_i h1
        · rw [if_pos h1]
          split at h <;> rename_i h2
          · cases h
          · rw [if_neg h2]
            split at h <;> rename_i hk
            · rfl
            · cases h
        · rw [if_neg h1]; rfl
  | call i =>
    simp only [ostep] at h ⊢
    split
    · rename_i fd hi
      cases fd <;> rfl
    · rfl
  | close i =>
    simp only [ostep] at h ⊢
    split at h <;> rename_i hi
    · cases h
    · rfl
  | resize i size trunc addr =>
    cases hi : s.objs i with
    | none => simp [ostep, hi]
    | some o =>
      cases o with
      | stream fd => simp [ostep, hi]
      | mapped d z => simp [ostep, hi]
      | backed fd data old =>
        cases fd with
        | none => simp [ostep, hi]
        | some m =>
          simp only [ostep, hi] at h ⊢
          unfold OsState.resizeBacked at h ⊢
          split at h <;> rename_i h0
          · cases h
          · rw [if_neg h0]
            simp only at h ⊢
            split at h <;> rename_i h1
            · rw [if_pos h1]
              split at h <;> rename_i h2
              · rw [if_pos h2]
                split at h <;> rename_i hk
                · rfl
                · cases h
              · rw [if_neg h2]
                split at h <;> rename_i h3
                · cases h
                · rw [if_neg h3]
                  cases data with
                  | none => rfl
                  | some b =>
                    simp only at h ⊢
                    split at h <;> rename_i hk
                    · rfl
                    · cases h
            · rw [if_neg h1]; rfl
  | destroy i =>
    simp only [ostep] at h ⊢
    split at h <;> rename_i hi
    · cases h
    · rfl
  | otherOpen m c l => rfl
  | otherClose m =>
    simp only [ostep]
    split <;> rfl
  | otherMap b l => rfl
  | otherUnmap b l =>
    simp only [ostep]
    split <;> rfl

/-- A closed stream is refused without any system call, whatever has become of the number of its descriptor. -/
theorem C86_closed (s : OsState) (i : Nat) (fd : Option Nat) (h : s.objs i = some (.stream fd)) :
    ostep (ostep s (.close i)).1 (.call i) = ((ostep s (.close i)).1, .error) ∧
    (ostep (ostep s (.close i)).1 (.close i)).1.used = (ostep s (.close i)).1.used := by
  simp [ostep, h, OsState.put, OsState.callStream, OsState.closeFd]

/-- A failed `ftruncate`, after the temporary file has been made, leaves the file in `/tmp` under its name, whatever happens
later: the constructor throws before it removes the name. -/
theorem C86_names_violated (s : OsState) (i size n : Nat) (unlink : Bool) (addr : Option Nat) (hi : s.objs i = none)
    (hn : n ∉ s.kernel.fds.map Fd.num) (as : List OsAct) :
    (ostep s (.newBacked i size (some n) false unlink addr)).2 = .error ∧
    i ∈ (orun (ostep s (.newBacked i size (some n) false unlink addr)).1 as).kernel.names := by
  have e : s.kernel.openFd (some i) false 0 (some n) =
      ({ s.kernel with fds := ⟨n, some i, false, 0⟩ :: s.kernel.fds }, some n) := by
    simp only [Kernel.openFd]
    rw [if_neg hn]
  constructor
  · simp only [ostep, hi, Option.isSome_none, Bool.false_eq_true, if_false, OsState.newBacked, e]
  · refine names_kept as _ ?_
    simp only [ostep, hi, Option.isSome_none, Bool.false_eq_true, if_false, OsState.newBacked, e, closeFd_names, OsState.useFd,
      List.mem_cons, true_or]

/-- As long as `ftruncate` and `unlink` do what they should when a file-backed block is made, no temporary file ever has a
name when a call has returned, whatever else fails.  Missing: what `C86_names_violated` describes. -/
theorem C86_names_partial (as : List OsAct)
    (h : ∀ a ∈ as, ∀ i size fd trunc unlink addr, a = .newBacked i size fd trunc unlink addr → trunc = true ∧ unlink = true) :
    (orun .init as).kernel.names = [] := by
  suffices ∀ (as : List OsAct) (s : OsState), s.kernel.names = [] →
      (∀ a ∈ as, ∀ i size fd trunc unlink addr, a = .newBacked i size fd trunc unlink addr → trunc = true ∧ unlink = true) →
      (orun s as).kernel.names = [] from this as _ rfl h
  intro as
  induction as with
  | nil => intro s hs _; exact hs
  | cons a as ih =>
    intro s hs h
    refine ih _ ?_ (fun b hb => h b (List.mem_cons_of_mem _ hb))
    rcases step_names s a with e | ⟨i, size, n, trunc, unlink, addr, rfl, hne, _⟩
    · rw [e]; exact hs
    · exact absurd (h _ List.mem_cons_self _ _ _ _ _ _ rfl) hne

/-- All memory of a file-backed block is backed by its file, so that no access to it is a bus error, as long as no `resize`
to a smaller size fails after it has cut the file off.  Missing: what `C86_usable_violated` describes. -/
theorem C86_usable_partial (as : List OsAct) (h : NoFailedShrink .init as) (i : Nat) :
    Usable (orun .init as).kernel ((orun .init as).objs i) := by
  have hl := LenInv.run as OsInv.init (by intro _ _ _ _ h; cases h) h
  cases ho : (orun .init as).objs i with
  | none => trivial
  | some o =>
    cases o with
    | stream fd => trivial
    | mapped d z => trivial
    | backed fd d z =>
      cases fd with
      | none => trivial
      | some n => exact hl i n d z ho

/-- If `mremap` fails when a block is made smaller, the block stays as large as it was, but its file is already shorter: the
call throws, and the bytes beyond the end of the file can no longer be read. -/
theorem C86_usable_violated (as : List OsAct) (i n : Nat) (data : Option Nat) (old size : Nat)
    (hi : (orun .init as).objs i = some (.backed (some n) data old)) (h0 : 0 < size) (h1 : size < old) :
    (ostep (orun .init as) (.resize i size true none)).2 = .error ∧
    ¬Usable (ostep (orun .init as) (.resize i size true none)).1.kernel
      ((ostep (orun .init as) (.resize i size true none)).1.objs i) := by
  obtain ⟨F, G, h⟩ := OsInv.init.run as
  have hd := (h.shape i _ _ _ hi).2
  cases data with
  | none => exact absurd (hd.1 rfl) (by omega)
  | some b =>
    have e : ostep (orun .init as) (.resize i size true none) =
        (({ (orun .init as).useFd i n with kernel := (orun .init as).kernel.truncate n size }).useMap i b old, .error) := by
      simp only [ostep, hi, OsState.resizeBacked]
      rw [if_neg (show ¬size = old by omega), if_pos trivial, if_neg (show ¬old = 0 by omega), if_neg (show ¬size = 0 by omega)]
      rfl
    rw [e]
    refine ⟨rfl, ?_⟩
    simp only [OsState.useMap, OsState.useFd, hi, Usable, Kernel.truncate]
    rintro ⟨f, hf, h2, h3⟩
    obtain ⟨g, hg, rfl⟩ := List.mem_map.1 hf
    split at h2
    · rename_i hgn
      rw [if_pos hgn] at h3
      simp only at h3
      omega
    · rename_i hgn
      exact hgn h2

/-- The only descriptors of the library that a program started by the process inherits are those of file-backed blocks.
Missing: these, see `C86_exec_violated`. -/
theorem C86_exec_partial (as : List OsAct) (f : Fd) (hf : f ∈ (orun .init as).kernel.exec) (i : Nat) (hi : f.owner = some i) :
    ∃ data size, (orun .init as).objs i = some (.backed (some f.num) data size) := by
  obtain ⟨h1, h2⟩ := List.mem_filter.1 hf
  exact ExecInv.run as OsInv.init (by intro f hf; cases hf) f h1 (by simpa using h2) i hi

/-- The descriptor of a file-backed block is inherited: `mkstemp` does not set the flag that would close it. -/
theorem C86_exec_violated (s : OsState) (i size n a : Nat) (hi : s.objs i = none) (hn : n ∉ s.kernel.fds.map Fd.num)
    (ha : a ∉ s.kernel.maps.map Mapping.addr) :
    (ostep s (.newBacked i size (some n) true true (some a))).2 = .ok ∧
    ∃ f ∈ (ostep s (.newBacked i size (some n) true true (some a))).1.kernel.exec, f.num = n ∧ f.owner = some i := by
  have e : s.kernel.openFd (some i) false 0 (some n) =
      ({ s.kernel with fds := ⟨n, some i, false, 0⟩ :: s.kernel.fds }, some n) := by
    simp only [Kernel.openFd]
    rw [if_neg hn]
  simp only [ostep, hi, Option.isSome_none, Bool.false_eq_true, if_false, OsState.newBacked, e, if_true]
  by_cases hz : size = 0
  · rw [if_pos hz]
    refine ⟨rfl, ⟨n, some i, false, size⟩, ?_, rfl, rfl⟩
    simp [Kernel.exec, OsState.put, OsState.useFd, Kernel.truncate]
  · rw [if_neg hz]
    have em : ∀ k : Kernel, k.maps = s.kernel.maps →
        k.map (some i) size (some a) = ({ k with maps := ⟨a, size, some i⟩ :: k.maps }, some a) := by
      intro k hk
      simp only [Kernel.map, hk]
      rw [if_neg ha]
    generalize hk : Kernel.map _ (some i) size (some a) = r
    rw [em] at hk
    · subst hk
      refine ⟨rfl, ⟨n, some i, false, size⟩, ?_, rfl, rfl⟩
      simp [Kernel.exec, OsState.put, OsState.useFd, Kernel.truncate]
    · rfl

/-! ## Examples -/

namespace OsExample

/-- A stream on descriptor 3 that is closed, its number taken by the rest of the process, then asked again and destroyed; a
mapped file whose mapping fails; a file-backed block that grows and shrinks. -/
def acts : List OsAct :=
  [.newStream 0 100 (some 3), .call 0, .close 0, .otherOpen 3 false 7, .call 0, .close 0, .destroy 0,
   .newMapped 1 50 (some 4) true none, .newBacked 2 10 (some 4) true true (some 1000), .resize 2 20 true (some 2000),
   .resize 2 5 true (some 1000), .newMapped 3 60 (some 5) true (some 3000), .otherMap 2000 8]

example : ((orun .init acts).objs 0, (orun .init acts).objs 1, (orun .init acts).objs 2, (orun .init acts).objs 3) =
    (none, none, some (.backed (some 4) (some 1000) 5), some (.mapped (some 3000) 60)) := by decide +kernel

example : (orun .init acts).kernel.fds = [⟨4, some 2, false, 5⟩, ⟨3, none, false, 7⟩] ∧
    (orun .init acts).kernel.maps = [⟨2000, 8, none⟩, ⟨3000, 60, some 3⟩, ⟨1000, 5, some 2⟩] ∧
    (orun .init acts).kernel.names = [] ∧ (orun .init acts).used.length = 15 := by decide +kernel

/-- The hypotheses of `C86_names_partial` and of `C86_usable_partial`. -/
example : ∀ a ∈ acts, ∀ i size fd trunc unlink addr, a = .newBacked i size fd trunc unlink addr →
    trunc = true ∧ unlink = true := by
  intro a ha i size fd trunc unlink addr he
  subst he
  simp only [acts, List.mem_cons, reduceCtorEq, OsAct.newBacked.injEq, List.not_mem_nil, or_false, false_or] at ha
  exact ⟨ha.2.2.2.1, ha.2.2.2.2.1⟩

/-- A growth that fails is no obstacle: the block can be used as before. -/
example : NoFailedShrink .init [.newBacked 2 10 (some 4) true true (some 1000), .resize 2 20 true none] ∧
    (orun .init [.newBacked 2 10 (some 4) true true (some 1000), .resize 2 20 true none]).objs 2 =
      some (.backed (some 4) (some 1000) 10) := by
  refine ⟨And.intro (fun _ _ _ _ _ _ h => by cases h) (And.intro ?_ True.intro), by decide +kernel⟩
  intro i size addr n data old h1 h2 _
  cases h1
  have : (ostep OsState.init (.newBacked 2 10 (some 4) true true (some 1000))).1.objs 2 =
      some (.backed (some 4) (some 1000) 10) := by decide +kernel
  rw [this] at h2
  cases h2
  decide

/-- A block of 10 bytes whose `resize` to 5 fails in `mremap`: it still says 10, over a file of 5. -/
example : (orun .init [.newBacked 2 10 (some 4) true true (some 1000), .resize 2 5 true none]).objs 2 =
      some (.backed (some 4) (some 1000) 10) ∧
    (orun .init [.newBacked 2 10 (some 4) true true (some 1000), .resize 2 5 true none]).kernel.fds =
      [⟨4, some 2, false, 5⟩] := by decide +kernel

end OsExample

end Mlio
