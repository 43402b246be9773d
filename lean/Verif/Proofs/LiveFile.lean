import Verif.Spec.LiveFile

/-! # Reading files that change -/

namespace Mlio
open Spec

theorem readBytes_cons_ok (x : Bytes) (os : List (Res Bytes)) : readBytes (.ok x :: os) = x ++ readBytes os := by
  simp [readBytes]

theorem prefix_drop {a b : Bytes} (h : a <+: b) (k : Nat) : a.drop k <+: b.drop k := by
  obtain ⟨t, rfl⟩ := h
  rw [List.drop_append]
  exact List.prefix_append _ _

/-- What a stream still delivers of a file that only grows. -/
theorem file_grows (page : Nat) : ∀ (rs : List (LiveFile × Nat × Nat)) (f : LiveFile) (pos : Nat), pos ≤ f.bytes.length → OnlyGrows f rs →
    AllRead (liveReads page (.file pos) rs) ∧
    ∃ l, (f :: rs.map (·.1)).getLast? = some l ∧ readBytes (liveReads page (.file pos) rs) <+: l.bytes.drop pos
  | [], f, pos, _, _ => ⟨by simp [AllRead, liveReads], f, by simp, by simp [liveReads, readBytes]⟩
  | (g, short, n) :: rs, f, pos, hp, ⟨h1, h2⟩ => by
    have hg : pos ≤ g.bytes.length := Nat.le_trans hp h1.length_le
    generalize hgot : (g.bytes.drop pos).take (min n (short + 1)) = got
    have hgl : got.length ≤ g.bytes.length - pos := by
      rw [← hgot, List.length_take, List.length_drop]; omega
    obtain ⟨ha, l, hl, hpre⟩ := file_grows page rs g (pos + got.length) (by omega) h2
    have hread : LiveStream.read page g short n (.file pos) = (.ok got, .file (pos + got.length)) := by
      simp [LiveStream.read, hgot]
    refine ⟨?_, l, ?_, ?_⟩
    · simp only [liveReads, hread]
      intro o ho
      rcases List.mem_cons.1 ho with h | h
      · exact ⟨got, h⟩
      · exact ha o h
    · simpa using hl
    · simp only [liveReads, hread, readBytes_cons_ok]
      -- the bytes of `g` are still there at the end
      have hgrow : g.bytes <+: l.bytes := by
        clear ha hpre hread hgl hgot hg hp h1
        clear got
        induction rs generalizing g with
        | nil => simp at hl; subst hl; exact List.prefix_refl _
        | cons r rs ih =>
          have hl' : (r.1 :: rs.map (·.1)).getLast? = some l := by simpa using hl
          exact h2.1.trans (ih r.1 (h2 := h2.2) hl')
      have hpl : got <+: l.bytes.drop pos := by
        rw [← hgot]
        exact (List.take_prefix _ _).trans (prefix_drop hgrow pos)
      obtain ⟨t, ht⟩ := hpl
      have : l.bytes.drop (pos + got.length) = t := by
        rw [← List.drop_drop, ← ht]; simp
      rw [this] at hpre
      rw [← ht]
      exact (List.prefix_append_right_inj _).2 hpre

/-- A stream that returns nothing has returned everything before. -/
theorem file_end (page : Nat) (e : LiveFile) (short n : Nat) (hn : 0 < n) : ∀ (rs : List (LiveFile × Nat × Nat)) (f : LiveFile) (pos : Nat),
    pos ≤ f.bytes.length → OnlyGrows f (rs ++ [(e, short, n)]) →
    (liveReads page (.file pos) (rs ++ [(e, short, n)])).getLast? = some (.ok []) →
    readBytes (liveReads page (.file pos) rs) = e.bytes.drop pos
  | [], f, pos, _, _, h => by
    simp [liveReads, LiveStream.read] at h
    have : e.bytes.length ≤ pos := by omega
    simp [liveReads, readBytes, List.drop_eq_nil_of_le this]
  | (g, k, m) :: rs, f, pos, hp, ⟨h1, h2⟩, h => by
    have hg : pos ≤ g.bytes.length := Nat.le_trans hp h1.length_le
    generalize hgot : (g.bytes.drop pos).take (min m (k + 1)) = got
    have hgl : got.length ≤ g.bytes.length - pos := by
      rw [← hgot, List.length_take, List.length_drop]; omega
    have hread : LiveStream.read page g k m (.file pos) = (.ok got, .file (pos + got.length)) := by
      simp [LiveStream.read, hgot]
    have hne : liveReads page (.file (pos + got.length)) (rs ++ [(e, short, n)]) ≠ [] := by
      cases rs <;> simp [liveReads]
    have h' : (liveReads page (.file (pos + got.length)) (rs ++ [(e, short, n)])).getLast? = some (.ok []) := by
      simp only [List.cons_append, liveReads, hread] at h
      rw [List.getLast?_cons_of_ne_nil hne] at h
      exact h
    have ih := file_end page e short n hn rs g (pos + got.length) (by omega) h2 h'
    have hgrow : g.bytes <+: e.bytes := by
      clear ih h' hne hread hgl hgot hg h h1 hp
      clear got
      induction rs generalizing g with
      | nil => exact h2.1
      | cons r rs ih => exact h2.1.trans (ih r.1 (h2 := h2.2))
    have hpl : got <+: e.bytes.drop pos := by
      rw [← hgot]
      exact (List.take_prefix _ _).trans (prefix_drop hgrow pos)
    obtain ⟨t, ht⟩ := hpl
    simp only [liveReads, hread, readBytes_cons_ok, ih]
    rw [← List.drop_drop, ← ht]
    simp

/-- What a stream delivers of a file that is only cut. -/
theorem file_cut (page : Nat) : ∀ (rs : List (LiveFile × Nat × Nat)) (f : LiveFile) (pos : Nat), OnlyCut f rs →
    AllRead (liveReads page (.file pos) rs) ∧ readBytes (liveReads page (.file pos) rs) <+: f.bytes.drop pos
  | [], f, pos, _ => ⟨by simp [AllRead, liveReads], by simp [liveReads, readBytes]⟩
  | (g, short, n) :: rs, f, pos, ⟨h1, h2⟩ => by
    generalize hgot : (g.bytes.drop pos).take (min n (short + 1)) = got
    have hread : LiveStream.read page g short n (.file pos) = (.ok got, .file (pos + got.length)) := by
      simp [LiveStream.read, hgot]
    obtain ⟨ha, hpre⟩ := file_cut page rs g (pos + got.length) h2
    have hpl : got <+: g.bytes.drop pos := by rw [← hgot]; exact List.take_prefix _ _
    refine ⟨?_, ?_⟩
    · simp only [liveReads, hread]
      intro o ho
      rcases List.mem_cons.1 ho with h | h
      · exact ⟨got, h⟩
      · exact ha o h
    · simp only [liveReads, hread, readBytes_cons_ok]
      refine List.IsPrefix.trans ?_ (prefix_drop h1 pos)
      obtain ⟨t, ht⟩ := hpl
      have : g.bytes.drop (pos + got.length) = t := by
        rw [← List.drop_drop, ← ht]; simp
      rw [this] at hpre
      rw [← ht]
      exact (List.prefix_append_right_inj _).2 hpre

/-- Copying what is in the file. -/
theorem mappedCopy_in (page : Nat) (f : LiveFile) : ∀ n i, i + n ≤ f.bytes.length → mappedCopy page f i n = .ok ((f.bytes.drop i).take n)
  | 0, i, _ => by simp [mappedCopy]
  | n + 1, i, h => by
    have hi : i < f.bytes.length := by omega
    simp only [mappedCopy, mappedByte, List.getElem?_eq_getElem hi, mappedCopy_in page f n (i + 1) (by omega)]
    rw [List.drop_eq_getElem_cons hi, List.take_succ_cons]

theorem le_pageEnd {page : Nat} (hp : 0 < page) (f : LiveFile) : f.bytes.length ≤ pageEnd page f := by
  unfold pageEnd
  have := Nat.div_add_mod (f.bytes.length + page - 1) page
  have h2 := Nat.mod_lt (f.bytes.length + page - 1) hp
  rw [Nat.mul_comm] at this
  omega

/-- Copying what is behind the end, in the last page. -/
theorem mappedCopy_zeros (page : Nat) (f : LiveFile) : ∀ n i, f.bytes.length ≤ i → i + n ≤ pageEnd page f →
    mappedCopy page f i n = .ok (List.replicate n 0)
  | 0, i, _, _ => by simp [mappedCopy]
  | n + 1, i, h, h2 => by
    have hn : f.bytes[i]? = none := List.getElem?_eq_none h
    simp only [mappedCopy, mappedByte, hn, if_pos (show i < pageEnd page f by omega), mappedCopy_zeros page f n (i + 1) (by omega) (by omega)]
    rfl

/-- Copying up to the last page. -/
theorem mappedCopy_cut (page : Nat) (f : LiveFile) : ∀ n i, i ≤ f.bytes.length → f.bytes.length ≤ i + n → i + n ≤ pageEnd page f →
    mappedCopy page f i n = .ok (f.bytes.drop i ++ List.replicate (i + n - f.bytes.length) 0)
  | 0, i, h, h1, _ => by
    have : i = f.bytes.length := by omega
    simp [mappedCopy, this]
  | n + 1, i, h, h1, h2 => by
    by_cases hi : i < f.bytes.length
    · simp only [mappedCopy, mappedByte, List.getElem?_eq_getElem hi, mappedCopy_cut page f n (i + 1) (by omega) (by omega) (by omega)]
      rw [List.drop_eq_getElem_cons hi, List.cons_append, show i + 1 + n = i + (n + 1) by omega]
    · have : i = f.bytes.length := by omega
      rw [mappedCopy_zeros page f (n + 1) i (by omega) h2, this]
      simp

/-- Copying beyond the last page. -/
theorem mappedCopy_bus {page : Nat} (hp : 0 < page) (f : LiveFile) : ∀ n i, i ≤ pageEnd page f → pageEnd page f < i + n →
    mappedCopy page f i n = .ub "SIGBUS"
  | 0, i, h, h1 => by omega
  | n + 1, i, h, h1 => by
    have hle := le_pageEnd hp f
    by_cases hi : i < pageEnd page f
    · by_cases hl : i < f.bytes.length
      · simp only [mappedCopy, mappedByte, List.getElem?_eq_getElem hl, mappedCopy_bus hp f n (i + 1) (by omega) (by omega)]
      · simp only [mappedCopy, mappedByte, List.getElem?_eq_none (Nat.le_of_not_lt hl), if_pos hi, mappedCopy_bus hp f n (i + 1) (by omega) (by omega)]
    · simp only [mappedCopy, mappedByte, List.getElem?_eq_none (show f.bytes.length ≤ i by omega), if_neg hi]

theorem take_of_prefix {a b : Bytes} (h : a <+: b) {k : Nat} (hk : k ≤ a.length) : b.take k = a.take k := by
  obtain ⟨t, rfl⟩ := h
  rw [List.take_append_of_le_length hk]

/-- A read of a mapped file that still has all its bytes. -/
theorem mapped_read (page : Nat) (g : LiveFile) (short n size pos : Nat) (hp : pos ≤ size) (hs : size ≤ g.bytes.length) :
    LiveStream.read page g short n (.mapped size pos) = (.ok (((g.bytes.take size).drop pos).take n), .mapped size (pos + min n (size - pos))) := by
  have h := mappedCopy_in page g (min n (size - pos)) pos (by omega)
  simp only [LiveStream.read, h]
  congr 2
  rw [List.drop_take, List.take_take]

/-- What a mapped file delivers while the file only grows. -/
theorem mapped_grows (page : Nat) : ∀ (rs : List (LiveFile × Nat × Nat)) (f : LiveFile) (size pos : Nat), pos ≤ size → size ≤ f.bytes.length →
    OnlyGrows f rs →
    AllRead (liveReads page (.mapped size pos) rs) ∧ readBytes (liveReads page (.mapped size pos) rs) <+: (f.bytes.take size).drop pos
  | [], f, size, pos, _, _, _ => ⟨by simp [AllRead, liveReads], by simp [liveReads, readBytes]⟩
  | (g, short, n) :: rs, f, size, pos, hp, hs, ⟨h1, h2⟩ => by
    have hg : size ≤ g.bytes.length := Nat.le_trans hs h1.length_le
    have hread := mapped_read page g short n size pos hp hg
    obtain ⟨ha, hpre⟩ := mapped_grows page rs g size (pos + min n (size - pos)) (by omega) hg h2
    refine ⟨?_, ?_⟩
    · simp only [liveReads, hread]
      intro o ho
      rcases List.mem_cons.1 ho with h | h
      · exact ⟨_, h⟩
      · exact ha o h
    · simp only [liveReads, hread, readBytes_cons_ok]
      rw [take_of_prefix h1 hs] at hpre ⊢
      generalize hx : (f.bytes.take size).drop pos = x at *
      have hl : x.length = size - pos := by rw [← hx]; simp; omega
      rw [← List.drop_drop, hx] at hpre
      have e : x.drop (min n (size - pos)) = x.drop n := by
        by_cases hn : n ≤ size - pos
        · rw [Nat.min_eq_left hn]
        · rw [Nat.min_eq_right (by omega), List.drop_eq_nil_of_le (by omega), List.drop_eq_nil_of_le (by omega)]
      rw [e] at hpre
      have := (List.prefix_append_right_inj (x.take n)).2 hpre
      rwa [List.take_append_drop] at this

/-- A mapped file that returns nothing has returned everything before. -/
theorem mapped_end (page : Nat) (e : LiveFile) (short n : Nat) (hn : 0 < n) : ∀ (rs : List (LiveFile × Nat × Nat)) (f : LiveFile) (size pos : Nat),
    pos ≤ size → size ≤ f.bytes.length → OnlyGrows f (rs ++ [(e, short, n)]) →
    (liveReads page (.mapped size pos) (rs ++ [(e, short, n)])).getLast? = some (.ok []) →
    readBytes (liveReads page (.mapped size pos) rs) = (f.bytes.take size).drop pos
  | [], f, size, pos, hp, hs, ⟨h1, _⟩, h => by
    have hg : size ≤ e.bytes.length := Nat.le_trans hs h1.length_le
    have hread := mapped_read page e short n size pos hp hg
    simp only [List.nil_append, liveReads, hread, List.getLast?_singleton, Option.some.injEq, Res.ok.injEq] at h
    rw [take_of_prefix h1 hs] at h
    have hl := congrArg List.length h
    simp at hl
    have : (f.bytes.take size).drop pos = [] := by
      apply List.drop_eq_nil_of_le; simp; omega
    simp [liveReads, readBytes, this]
  | (g, k, m) :: rs, f, size, pos, hp, hs, ⟨h1, h2⟩, h => by
    have hg : size ≤ g.bytes.length := Nat.le_trans hs h1.length_le
    have hread := mapped_read page g k m size pos hp hg
    have hne : liveReads page (.mapped size (pos + min m (size - pos))) (rs ++ [(e, short, n)]) ≠ [] := by
      cases rs <;> simp [liveReads]
    have h' : (liveReads page (.mapped size (pos + min m (size - pos))) (rs ++ [(e, short, n)])).getLast? = some (.ok []) := by
      simp only [List.cons_append, liveReads, hread] at h
      rw [List.getLast?_cons_of_ne_nil hne] at h
      exact h
    have ih := mapped_end page e short n hn rs g size (pos + min m (size - pos)) (by omega) hg h2 h'
    simp only [liveReads, hread, readBytes_cons_ok, ih]
    rw [take_of_prefix h1 hs]
    generalize hx : (f.bytes.take size).drop pos = x at *
    have hl : x.length = size - pos := by rw [← hx]; simp; omega
    rw [← List.drop_drop, hx]
    have e : x.drop (min m (size - pos)) = x.drop m := by
      by_cases hn : m ≤ size - pos
      · rw [Nat.min_eq_left hn]
      · rw [Nat.min_eq_right (by omega), List.drop_eq_nil_of_le (by omega), List.drop_eq_nil_of_le (by omega)]
    rw [e, List.take_append_drop]

/-! ## Loading whole files -/

/-- A read of a stream when `got` is what it delivers. -/
theorem file_read (page : Nat) (g : LiveFile) (short n pos : Nat) :
    LiveStream.read page g short n (.file pos) =
      (.ok ((g.bytes.drop pos).take (min n (short + 1))), .file (pos + ((g.bytes.drop pos).take (min n (short + 1))).length)) := rfl

theorem prefix_extend {filled g : Bytes} (h : filled <+: g) (n : Nat) : filled ++ (g.drop filled.length).take n <+: g := by
  obtain ⟨t, rfl⟩ := h
  simp only [List.drop_left]
  exact (List.prefix_append_right_inj _).2 (List.take_prefix _ _)

/-- Loading a file that grows, once it ends, gives the file as it was at some read. -/
theorem load_grows (page : Nat) (fs : Nat → LiveFile × Nat) (hg : ∀ k, (fs k).1.bytes <+: (fs (k + 1)).1.bytes) :
    ∀ (fuel k size : Nat) (filled : Bytes), 0 < size → filled.length ≤ size → filled <+: (fs k).1.bytes →
      loadLive page fs fuel k (.file filled.length) size filled = .err .diverges ∨
      ∃ j, loadLive page fs fuel k (.file filled.length) size filled = .ok (fs j).1.bytes
  | 0, _, _, _, _, _, _ => Or.inl rfl
  | fuel + 1, k, size, filled, hs, hl, hp => by
    unfold loadLive
    by_cases he : filled.length = size
    · rw [if_pos he]
      exact load_grows page fs hg fuel k (size * 2) filled (by omega) (by omega) hp
    · rw [if_neg he, file_read]
      generalize hgot : ((fs k).1.bytes.drop filled.length).take (min (size - filled.length) ((fs k).2 + 1)) = got
      have hlen : got.length ≤ size - filled.length := by
        rw [← hgot, List.length_take]; omega
      cases got with
      | nil =>
        refine Or.inr ⟨k, ?_⟩
        have h0 := congrArg List.length hgot
        simp only [List.length_take, List.length_drop, List.length_nil] at h0
        have : (fs k).1.bytes.length ≤ filled.length := by omega
        simp only [hp.eq_of_length (Nat.le_antisymm hp.length_le this)]
      | cons b bs =>
        have hp' : filled ++ b :: bs <+: (fs k).1.bytes := by
          rw [← hgot]; exact prefix_extend hp _
        have := load_grows page fs hg fuel (k + 1) size (filled ++ b :: bs) hs (by rw [List.length_append]; omega) (hp'.trans (hg k))
        rw [List.length_append] at this
        exact this

/-- Loading ends when what can be stored is bounded. -/
theorem load_ends (page : Nat) (fs : Nat → LiveFile × Nat) (B : Nat) (hB : ∀ k, (fs k).1.bytes.length ≤ B) :
    ∀ (fuel k size : Nat) (filled : Bytes), 0 < size → filled.length ≤ size → filled.length ≤ B →
      2 * (B - filled.length) + (if filled.length = size then 1 else 0) < fuel →
      ∃ x, loadLive page fs fuel k (.file filled.length) size filled = .ok x
  | 0, _, _, _, _, _, _, hf => by omega
  | fuel + 1, k, size, filled, hs, hl, hb, hf => by
    unfold loadLive
    by_cases he : filled.length = size
    · rw [if_pos he]
      rw [if_pos he] at hf
      exact load_ends page fs B hB fuel k (size * 2) filled (by omega) (by omega) hb (by rw [if_neg (by omega)]; omega)
    · rw [if_neg he, file_read]
      rw [if_neg he] at hf
      generalize hgot : ((fs k).1.bytes.drop filled.length).take (min (size - filled.length) ((fs k).2 + 1)) = got
      have hlen : got.length ≤ size - filled.length ∧ got.length ≤ (fs k).1.bytes.length - filled.length := by
        rw [← hgot, List.length_take, List.length_drop]; omega
      have hk := hB k
      cases got with
      | nil => exact ⟨filled, rfl⟩
      | cons b bs =>
        have e : (filled ++ b :: bs).length = filled.length + (b :: bs).length := List.length_append
        have hpos : 0 < (b :: bs).length := by simp
        have := load_ends page fs B hB fuel (k + 1) size (filled ++ b :: bs) hs (by omega) (by omega) (by
          rw [e]
          split <;> omega)
        rw [e] at this
        exact this

/-- Loading a file that is cut gives a part of it. -/
theorem load_cut (page : Nat) (fs : Nat → LiveFile × Nat) (f : LiveFile) (hc : ∀ k, (fs k).1.bytes <+: f.bytes) :
    ∀ (fuel k size : Nat) (filled : Bytes), filled <+: f.bytes → ∀ x,
      loadLive page fs fuel k (.file filled.length) size filled = .ok x → x <+: f.bytes
  | 0, _, _, _, _, x, h => by simp [loadLive] at h
  | fuel + 1, k, size, filled, hp, x, h => by
    unfold loadLive at h
    by_cases he : filled.length = size
    · rw [if_pos he] at h
      exact load_cut page fs f hc fuel k (size * 2) filled hp x h
    · rw [if_neg he, file_read] at h
      generalize hgot : ((fs k).1.bytes.drop filled.length).take (min (size - filled.length) ((fs k).2 + 1)) = got at h
      cases got with
      | nil => cases h; exact hp
      | cons b bs =>
        have h1 : b :: bs <+: f.bytes.drop filled.length := by
          rw [← hgot]
          exact (List.take_prefix _ _).trans (prefix_drop (hc k) _)
        have hp' : filled ++ b :: bs <+: f.bytes := by
          obtain ⟨t, ht⟩ := hp
          have e : f.bytes.drop filled.length = t := by rw [← ht]; simp
          rw [e] at h1
          rw [← ht]
          exact (List.prefix_append_right_inj _).2 h1
        exact load_cut page fs f hc fuel (k + 1) size (filled ++ b :: bs) hp' x (by
          rw [List.length_append]; exact h)

/-- A block of size zero stays so. -/
theorem load_zero (page : Nat) (fs : Nat → LiveFile × Nat) (s : LiveStream) : ∀ fuel k, loadLive page fs fuel k s 0 [] = .err .diverges
  | 0, _ => rfl
  | fuel + 1, k => by
    unfold loadLive
    rw [if_pos (show ([] : Bytes).length = 0 from rfl)]
    exact load_zero page fs s fuel k

end Mlio
