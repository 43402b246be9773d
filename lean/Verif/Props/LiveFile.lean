import Verif.Proofs.LiveFile

/-!
# C116: local files are read as they are, also while they change

The reads of a stream that was opened on a file give its bytes in their order: all of them when the file stays as it is, whatever file it is; also
those that are appended meanwhile, or none of them; and only bytes that were there when the file is cut meanwhile.  They never end the program.

The full statement does not hold for files that are mapped into memory, which is the default.
-/

namespace Mlio
open Spec

/-- A file that is read with a stream, and is only appended to: no read fails, the bytes returned are the first ones of the file as it is at the end, and a read
(with a destination that is not empty) returns nothing only when all bytes that the file has then were returned. -/
theorem C116_appended (page : Nat) (f : LiveFile) (rs : List (LiveFile × Nat × Nat)) (h : OnlyGrows f rs) :
    AllRead (liveReads page (openLive false f) rs) ∧
    (∃ l, (f :: rs.map (·.1)).getLast? = some l ∧ readBytes (liveReads page (openLive false f) rs) <+: l.bytes) ∧
    (∀ before e short n, 0 < n → rs = before ++ [(e, short, n)] → (liveReads page (openLive false f) rs).getLast? = some (.ok []) →
      readBytes (liveReads page (openLive false f) before) = e.bytes) := by
  have ho : openLive false f = .file 0 := rfl
  rw [ho]
  obtain ⟨ha, l, hl, hp⟩ := file_grows page rs f 0 (Nat.zero_le _) h
  refine ⟨ha, ⟨l, hl, by simpa using hp⟩, ?_⟩
  rintro before e short n hn rfl hlast
  simpa using file_end page e short n hn before f 0 (Nat.zero_le _) h hlast

/-- A file of which the system tells the size, mapped into memory and only appended to: the same, with the bytes that the file had when it was opened. -/
theorem C116_mapped_partial (page : Nat) (f : LiveFile) (rs : List (LiveFile × Nat × Nat)) (hs : f.sized = true) (h : OnlyGrows f rs) :
    AllRead (liveReads page (openLive true f) rs) ∧
    readBytes (liveReads page (openLive true f) rs) <+: f.bytes ∧
    (∀ before e short n, 0 < n → rs = before ++ [(e, short, n)] → (liveReads page (openLive true f) rs).getLast? = some (.ok []) →
      readBytes (liveReads page (openLive true f) before) = f.bytes) := by
  have ho : openLive true f = .mapped f.bytes.length 0 := by simp [openLive, LiveFile.statSize, hs]
  rw [ho]
  obtain ⟨ha, hp⟩ := mapped_grows page rs f f.bytes.length 0 (Nat.zero_le _) (Nat.le_refl _) h
  refine ⟨ha, by simpa using hp, ?_⟩
  rintro before e short n hn rfl hlast
  simpa using mapped_end page e short n hn before f f.bytes.length 0 (Nat.zero_le _) (Nat.le_refl _) h hlast

/-- A file that stays as it is, read to the end: what the reads have returned is its contents, with a stream, and mapped into memory when the system tells
the size. -/
theorem C116_still_partial (page : Nat) (f : LiveFile) (memoryMap : Bool) (hm : memoryMap = true → f.sized = true)
    (before : List (LiveFile × Nat × Nat)) (short n : Nat) (hn : 0 < n) (h : FileStays f before)
    (hlast : (liveReads page (openLive memoryMap f) (before ++ [(f, short, n)])).getLast? = some (.ok [])) :
    readBytes (liveReads page (openLive memoryMap f) before) = f.bytes := by
  have hg : OnlyGrows f (before ++ [(f, short, n)]) := by
    clear hlast
    induction before with
    | nil => exact ⟨List.prefix_refl _, trivial⟩
    | cons r rs ih =>
      have hr := h r (List.mem_cons_self ..)
      refine ⟨by rw [hr]; exact List.prefix_refl _, ?_⟩
      rw [hr]
      exact ih fun x hx => h x (List.mem_cons_of_mem _ hx)
  cases memoryMap with
  | false => exact (C116_appended page f _ hg).2.2 before f short n hn rfl hlast
  | true => exact (C116_mapped_partial page f _ (hm rfl) hg).2.2 before f short n hn rfl hlast

/-- A file that is read with a stream, and is only cut: no read fails, and the bytes returned are the first ones of the file as it was when it was opened. -/
theorem C116_cut (page : Nat) (f : LiveFile) (rs : List (LiveFile × Nat × Nat)) (h : OnlyCut f rs) :
    AllRead (liveReads page (openLive false f) rs) ∧ readBytes (liveReads page (openLive false f) rs) <+: f.bytes := by
  have ho : openLive false f = .file 0 := rfl
  rw [ho]
  simpa using file_cut page rs f 0 h

/-- A file that is mapped into memory and cut before it is read whole: the program ends when the file lost a page, and otherwise the read returns zeros
for the bytes that are gone. -/
theorem C116_cut_violated (page : Nat) (hp : 0 < page) (f g : LiveFile) (hs : f.sized = true) (hcut : g.bytes <+: f.bytes)
    (short n : Nat) (hn : f.bytes.length ≤ n) :
    liveReads page (openLive true f) [(g, short, n)] =
      if f.bytes.length ≤ pageEnd page g then [.ok (g.bytes ++ List.replicate (f.bytes.length - g.bytes.length) 0)] else [.ub "SIGBUS"] := by
  have ho : openLive true f = .mapped f.bytes.length 0 := by simp [openLive, LiveFile.statSize, hs]
  rw [ho]
  simp only [liveReads, LiveStream.read, Nat.sub_zero, Nat.min_eq_right hn]
  by_cases h : f.bytes.length ≤ pageEnd page g
  · rw [if_pos h, mappedCopy_cut page g f.bytes.length 0 (Nat.zero_le _) (by have := hcut.length_le; omega) (by omega)]
    simp
  · rw [if_neg h, mappedCopy_bus hp g f.bytes.length 0 (Nat.zero_le _) (by omega)]

/-- So bytes are returned that were never in the file, and a file that is emptied meanwhile ends the program. -/
theorem C116_cut_both_violated (page : Nat) (hp : 1 < page) :
    (∃ f g : LiveFile, f.sized = true ∧ g.bytes <+: f.bytes ∧ AllRead (liveReads page (openLive true f) [(g, 0, 2)]) ∧
      ¬ readBytes (liveReads page (openLive true f) [(g, 0, 2)]) <+: f.bytes) ∧
    (∃ f g : LiveFile, f.sized = true ∧ g.bytes <+: f.bytes ∧ ¬ ∀ o ∈ liveReads page (openLive true f) [(g, 0, 2)], o.NoUB) := by
  have h1 := C116_cut_violated page (by omega) ⟨[1, 2], true⟩ ⟨[1], true⟩ rfl (by decide) 0 2 (by decide)
  have h2 := C116_cut_violated page (by omega) ⟨[1, 2], true⟩ ⟨[], true⟩ rfl (by decide) 0 2 (by decide)
  have e1 : ([1, 2] : Bytes).length ≤ pageEnd page ⟨[1], true⟩ := by
    have : pageEnd page ⟨[1], true⟩ = page := by
      simp only [pageEnd, List.length_cons, List.length_nil]
      rw [show 0 + 1 + page - 1 = page by omega, Nat.div_self (by omega), Nat.one_mul]
    rw [this]
    exact hp
  have e2 : ¬ ([1, 2] : Bytes).length ≤ pageEnd page ⟨[], true⟩ := by
    have : pageEnd page ⟨[], true⟩ = 0 := by
      simp only [pageEnd, List.length_nil]
      rw [Nat.div_eq_of_lt (by omega), Nat.zero_mul]
    rw [this]
    decide
  rw [if_pos e1] at h1
  rw [if_neg e2] at h2
  refine ⟨⟨⟨[1, 2], true⟩, ⟨[1], true⟩, rfl, by decide, ?_, ?_⟩, ⟨⟨[1, 2], true⟩, ⟨[], true⟩, rfl, by decide, ?_⟩⟩
  · rw [h1]
    simp [AllRead]
  · rw [h1]
    decide
  · rw [h2]
    simp [Res.NoUB]

/-- A file of which the system does not tell the size is empty when it is mapped into memory, whatever it holds and becomes. -/
theorem C116_special_violated (page : Nat) (f : LiveFile) (hs : f.sized = false) (rs : List (LiveFile × Nat × Nat)) :
    AllRead (liveReads page (openLive true f) rs) ∧ readBytes (liveReads page (openLive true f) rs) = [] := by
  have ho : openLive true f = .mapped 0 0 := by simp [openLive, LiveFile.statSize, hs]
  rw [ho]
  have key : ∀ rs, liveReads page (.mapped 0 0) rs = rs.map fun _ => Res.ok [] := by
    intro rs
    induction rs with
    | nil => rfl
    | cons r rs ih =>
      obtain ⟨g, short, n⟩ := r
      simp only [liveReads, LiveStream.read, Nat.sub_zero, Nat.min_zero, mappedCopy, Nat.add_zero, ih, List.map_cons]
  rw [key]
  refine ⟨?_, ?_⟩
  · intro o ho
    obtain ⟨_, _, rfl⟩ := List.mem_map.1 ho
    exact ⟨[], rfl⟩
  · induction rs with
    | nil => rfl
    | cons r rs ih => rw [List.map_cons, readBytes_cons_ok, ih]; rfl

/-! ## Files that are loaded whole, such as images -/

/-- A file that is not empty when it is opened, of a known size, loaded with a stream while it is only appended to: if it is loaded, then as it was at one of the reads;
and it is loaded, after a number of steps that depends on its greatest size only, if it has one. -/
theorem C116_load_partial (page : Nat) (f : LiveFile) (hs : f.sized = true) (hne : f.bytes ≠ []) (fs : Nat → LiveFile × Nat) (hg : GrowsForth f fs) :
    (∀ fuel x, loadLiveFile page fuel false f fs = .ok x → ∃ k, x = (fs k).1.bytes) ∧
    (∀ B, (∀ k, (fs k).1.bytes.length ≤ B) → ∀ fuel, 2 * B + 1 < fuel → ∃ x, loadLiveFile page fuel false f fs = .ok x) := by
  have ho : ∀ fuel, loadLiveFile page fuel false f fs = loadLive page fs fuel 0 (.file 0) f.bytes.length [] := by
    intro fuel
    simp [loadLiveFile, openLive, LiveFile.statSize, hs]
  have hpos : 0 < f.bytes.length := List.length_pos_iff.2 hne
  refine ⟨fun fuel x hx => ?_, fun B hB fuel hf => ?_⟩
  · rw [ho] at hx
    rcases load_grows page fs hg.2 fuel 0 f.bytes.length [] hpos (Nat.zero_le _) (List.nil_prefix) with h | ⟨k, h⟩
    · rw [List.length_nil] at h
      rw [h] at hx
      cases hx
    · rw [List.length_nil] at h
      rw [h] at hx
      cases hx
      exact ⟨k, rfl⟩
  · rw [ho]
    have := load_ends page fs B hB fuel 0 f.bytes.length [] hpos (Nat.zero_le _) (Nat.zero_le _) (by
      simp only [List.length_nil]
      split <;> omega)
    simpa using this

/-- A file of a known size that is mapped, and only appended to: it is loaded as it was when it was opened. -/
theorem C116_load_mapped_partial (page fuel : Nat) (f : LiveFile) (hs : f.sized = true) (fs : Nat → LiveFile × Nat) (hg : GrowsForth f fs) :
    loadLiveFile page fuel true f fs = .ok f.bytes := by
  have ho : openLive true f = .mapped f.bytes.length 0 := by simp [openLive, LiveFile.statSize, hs]
  simp only [loadLiveFile, ho]
  rw [mapped_read page _ _ _ _ _ (Nat.zero_le _) hg.1.length_le, take_of_prefix hg.1 (Nat.le_refl _)]
  simp

/-- A file whose size the system gives as zero, mapped: nothing is loaded of it. -/
theorem C116_load_special_violated (page fuel : Nat) (f : LiveFile) (hs : f.sized = false) (fs : Nat → LiveFile × Nat) :
    loadLiveFile page fuel true f fs = .ok [] := by
  have ho : openLive true f = .mapped 0 0 := by simp [openLive, LiveFile.statSize, hs]
  simp only [loadLiveFile, ho]
  rfl

/-- A file that is loaded with a stream while it is only cut: a first part of what it was. -/
theorem C116_load_cut_partial (page : Nat) (f : LiveFile) (hs : f.sized = true) (hne : f.bytes ≠ []) (fs : Nat → LiveFile × Nat) (hc : CutForth f fs)
    (fuel : Nat) (hf : 2 * f.bytes.length + 1 < fuel) : ∃ x, loadLiveFile page fuel false f fs = .ok x ∧ x <+: f.bytes := by
  have ho : loadLiveFile page fuel false f fs = loadLive page fs fuel 0 (.file 0) f.bytes.length [] := by
    simp [loadLiveFile, openLive, LiveFile.statSize, hs]
  have hpos : 0 < f.bytes.length := List.length_pos_iff.2 hne
  have hall : ∀ k, (fs k).1.bytes <+: f.bytes := by
    intro k
    induction k with
    | zero => exact hc.1
    | succ k ih => exact (hc.2 k).trans ih
  obtain ⟨x, hx⟩ := load_ends page fs f.bytes.length (fun k => (hall k).length_le) fuel 0 f.bytes.length [] hpos (Nat.zero_le _) (Nat.zero_le _) (by
    simp only [List.length_nil]
    split <;> omega)
  rw [ho]
  exact ⟨x, hx, load_cut page fs f hall fuel 0 f.bytes.length [] List.nil_prefix x hx⟩

/-- A file that is not mapped and whose size is zero when it is opened, or that the system gives as zero: loading it does not end, whatever it holds then or later. -/
theorem C116_load_violated (page fuel : Nat) (f : LiveFile) (hs : f.sized = false ∨ f.bytes = []) (fs : Nat → LiveFile × Nat) :
    loadLiveFile page fuel false f fs = .err .diverges := by
  have h0 : f.statSize = 0 := by
    unfold LiveFile.statSize
    rcases hs with h | h
    · rw [h]; rfl
    · rw [h]; simp
  simp only [loadLiveFile, openLive, Bool.false_eq_true, if_false, h0]
  exact load_zero page fs _ fuel 0

/-! ## Concrete cases -/

/-- Two bytes at first, four from the third read on. -/
def growingFile (k : Nat) : LiveFile × Nat := if k < 2 then (⟨[1, 2], true⟩, 0) else (⟨[1, 2, 3, 4], true⟩, 0)

example : GrowsForth ⟨[1, 2], true⟩ growingFile ∧ (∀ k, (growingFile k).1.bytes.length ≤ 4) ∧
    loadLiveFile 4096 10 false ⟨[1, 2], true⟩ growingFile = .ok [1, 2, 3, 4] ∧
    loadLiveFile 4096 10 true ⟨[1, 2], true⟩ growingFile = .ok [1, 2] := by
  refine ⟨⟨by decide, fun k => ?_⟩, fun k => ?_, by decide +kernel, by decide +kernel⟩
  · by_cases h : k + 1 < 2
    · simp only [growingFile, if_pos h, if_pos (show k < 2 by omega)]; decide
    · by_cases h' : k < 2
      · simp only [growingFile, if_neg h, if_pos h']; decide
      · simp only [growingFile, if_neg h, if_neg h']; decide
  · unfold growingFile
    split <;> decide

-- A file that is cut from three bytes to one after the first read; and one in `/proc`.
example : CutForth ⟨[1, 2, 3], true⟩ (fun k => if k = 0 then (⟨[1, 2, 3], true⟩, 1) else (⟨[1], true⟩, 0)) ∧
    loadLiveFile 4096 10 false ⟨[1, 2, 3], true⟩ (fun k => if k = 0 then (⟨[1, 2, 3], true⟩, 1) else (⟨[1], true⟩, 0)) = .ok [1, 2] := by
  refine ⟨⟨by decide, fun k => ?_⟩, by decide +kernel⟩
  by_cases h : k = 0
  · subst h; decide
  · simp only [if_neg h, if_neg (show k + 1 ≠ 0 by omega)]; decide

example : loadLiveFile 4096 100 false ⟨[1, 2], false⟩ (fun _ => (⟨[1, 2], false⟩, 9)) = .err .diverges := by decide +kernel

/-- A file that grows from two bytes to four while it is read, with short reads, up to the end. -/
def growing : List (LiveFile × Nat × Nat) :=
  [(⟨[1, 2], true⟩, 0, 9), (⟨[1, 2, 3], true⟩, 9, 9), (⟨[1, 2, 3, 4], true⟩, 9, 9), (⟨[1, 2, 3, 4], true⟩, 9, 9)]

example : OnlyGrows ⟨[1, 2], true⟩ growing ∧
    liveReads 4096 (openLive false ⟨[1, 2], true⟩) growing = [.ok [1], .ok [2, 3], .ok [4], .ok []] ∧
    liveReads 4096 (openLive true ⟨[1, 2], true⟩) growing = [.ok [1, 2], .ok [], .ok [], .ok []] := by
  refine ⟨⟨?_, ?_, ?_, ?_, trivial⟩, ?_, ?_⟩ <;> decide +kernel

example : OnlyCut ⟨[1, 2, 3], true⟩ [(⟨[1, 2, 3], true⟩, 0, 9), (⟨[1, 2], true⟩, 9, 9)] ∧
    liveReads 4096 (openLive false ⟨[1, 2, 3], true⟩) [(⟨[1, 2, 3], true⟩, 0, 9), (⟨[1, 2], true⟩, 9, 9)] = [.ok [1], .ok [2]] := by
  refine ⟨⟨?_, ?_, trivial⟩, ?_⟩ <;> decide +kernel

/-- A file in `/proc`: whole with a stream, empty when mapped. -/
example : liveReads 4096 (openLive false ⟨[1, 2], false⟩) [(⟨[1, 2], false⟩, 9, 9), (⟨[1, 2], false⟩, 9, 9)] = [.ok [1, 2], .ok []] ∧
    liveReads 4096 (openLive true ⟨[1, 2], false⟩) [(⟨[1, 2], false⟩, 9, 9)] = [.ok []] := by decide +kernel

end Mlio
