import Verif.Spec.Insights
import Verif.Proofs.Hll
import Verif.Proofs.ParserOptions

/-! Lemmas about column statistics. -/

namespace Mlio
open Spec

theorem countIs_append {p : Bytes → Prop} {cs : List Bytes} {n : Nat} (h : CountIs p cs n) (c : Bytes) :
    (p c → CountIs p (cs ++ [c]) (n + 1)) ∧ (¬ p c → CountIs p (cs ++ [c]) n) := by
  induction h with
  | nil => exact ⟨fun h => .yes c [] 0 h .nil, fun h => .no c [] 0 h .nil⟩
  | yes d ds n hd _ ih => exact ⟨fun h => .yes d _ _ hd (ih.1 h), fun h => .yes d _ _ hd (ih.2 h)⟩
  | no d ds n hd _ ih => exact ⟨fun h => .no d _ _ hd (ih.1 h), fun h => .no d _ _ hd (ih.2 h)⟩

theorem lower_nat (a : UInt8) : (lower a).toNat = if 65 ≤ a.toNat ∧ a.toNat ≤ 90 then a.toNat + 32 else a.toNat := by
  have h := a.toNat_lt
  unfold lower
  simp only [Bool.and_eq_true, decide_eq_true_eq, UInt8.le_iff_toNat_le, UInt8.toNat_ofNat]
  split
  · rw [UInt8.toNat_add]
    simp only [UInt8.toNat_ofNat]
    omega
  · rfl

theorem lower_spec (a b : UInt8) : (a = b ∨ lower a = lower b) ↔ SameLetter a b := by
  have h1 := lower_nat a
  have h2 := lower_nat b
  unfold SameLetter
  rw [← UInt8.toNat_inj, ← UInt8.toNat_inj, h1, h2]
  constructor
  · rintro (h | h)
    · exact .inl h
    · by_cases he : a.toNat = b.toNat
      · exact .inl he
      · right
        split at h <;> split at h
        · omega
        · exact ⟨a.toNat - 65, by omega, by omega⟩
        · exact ⟨b.toNat - 65, by omega, by omega⟩
        · omega
  · rintro (h | ⟨k, hk, h | h⟩)
    · exact .inl h
    · right
      rw [if_pos (by omega), if_neg (by omega)]
      omega
    · right
      rw [if_neg (by omega), if_pos (by omega)]
      omega

theorem sameText_spec : ∀ a b : Bytes, sameText a b = true ↔ SameButCase a b := by
  intro a
  induction a with
  | nil => intro b; cases b <;> simp [sameText, SameButCase]
  | cons x a ih =>
    intro b
    cases b with
    | nil => simp [sameText, SameButCase]
    | cons y b =>
      simp only [sameText, Bool.and_eq_true, ih, Bool.or_eq_true, beq_iff_eq, SameButCase, lower_spec]

theorem matchNan_spec (nulls : List Bytes) (c : Bytes) : matchNan nulls c = true ↔ NullLike nulls c := by
  simp [matchNan, NullLike, sameText_spec, ← trim_iff]

theorem blank_eq (c : Bytes) : Blank c = isBlank c := by
  rw [Bool.eq_iff_iff]
  simp only [Blank, isBlank, decide_eq_true_iff, List.all_eq_true, isSpace_iff]
  exact Iff.rfl

theorem blank_nil : Blank [] = true := by decide

theorem tokensFrom_spec : ∀ (s cur : Bytes), (32 : UInt8) ∉ cur → IsWords (cur ++ s) (tokensFrom cur s) := by
  intro s
  induction s with
  | nil =>
    intro cur hc
    simp only [tokensFrom]
    by_cases h : cur = []
    · subst h; exact ⟨by simp, Or.inl (by simp)⟩
    · rw [if_neg (by simpa using h)]
      exact ⟨by simpa using hc, Or.inr ⟨[], cur, rfl, h, by simp⟩⟩
  | cons c cs ih =>
    intro cur hc
    simp only [tokensFrom]
    by_cases h : c = 32
    · subst h
      rw [if_pos (by rfl)]
      obtain ⟨h1, h2⟩ := ih [] (by simp)
      refine ⟨?_, ?_⟩
      · intro w hw
        rcases List.mem_cons.1 hw with rfl | hw
        · exact hc
        · exact h1 w hw
      · rcases h2 with h2 | ⟨init, last, e1, e2, e3⟩
        · left; simp only [List.map_cons, List.flatten_cons, ← h2]; simp
        · right
          refine ⟨cur :: init, last, by rw [e1]; rfl, e2, ?_⟩
          simp only [List.map_cons, List.flatten_cons, List.append_assoc, ← e3]
          simp
    · rw [if_neg (by simpa using h)]
      have := ih (cur ++ [c]) (by simp only [List.mem_append, not_or, List.mem_singleton]; exact ⟨hc, fun e => h e.symm⟩)
      simpa using this

theorem put_sketch {hs : Nat → Prop} {s : Hll} (h : IsSketch 16 hs s) (x : Nat) (hx : x < 2 ^ 32) :
    IsSketch 16 (fun y => y = x ∨ hs y) (s.put x) := by
  obtain ⟨s', e, k⟩ := add_sketch false 16 ⟨by decide, by decide⟩ hs s h x hx (by simp)
  unfold Hll.put
  rw [e]; exact k

theorem puts_sketch (t : CellTools) (ht : ∀ c, t.hash c < 2 ^ 32) : ∀ (ws : List Bytes) (hs : Nat → Prop) (s : Hll), IsSketch 16 hs s →
    IsSketch 16 (fun y => (∃ w ∈ ws, y = t.hash w) ∨ hs y) (ws.foldl (fun v w => v.put (t.hash w)) s) := by
  intro ws
  induction ws with
  | nil => intro hs s h; exact isSketch_congr h (by simp)
  | cons w ws ih =>
    intro hs s h
    have := ih _ _ (put_sketch h (t.hash w) (ht w))
    refine isSketch_congr this ?_
    intro y
    simp only [List.mem_cons, exists_eq_or_imp]
    constructor
    · rintro (h | h | h)
      · exact Or.inl (Or.inr h)
      · exact Or.inl (Or.inl h)
      · exact Or.inr h
    · rintro ((h | h) | h)
      · exact Or.inr (Or.inl h)
      · exact Or.inl h
      · exact Or.inr (Or.inr h)

theorem numbers_append (t : CellTools) (a b : List Bytes) : numbers t (a ++ b) = numbers t a ++ numbers t b := by
  simp [numbers]

theorem isLeast_snoc {l : List Rat} {o : Option Rat} (h : IsLeast l o) (q : Rat) :
    IsLeast (l ++ [q]) (match (generalizing := false) o with
      | none => some q
      | some m => if q < m then some q else some m) := by
  cases o with
  | none =>
    have hl : l = [] := h
    subst hl
    exact ⟨by simp, by intro x hx; simp at hx; subst hx; exact Rat.le_refl⟩
  | some m =>
    obtain ⟨h1, h2⟩ := h
    simp only
    split
    · rename_i hlt
      refine ⟨by simp, ?_⟩
      intro x hx
      rcases List.mem_append.1 hx with hx | hx
      · exact Rat.le_trans (Rat.le_of_lt hlt) (h2 x hx)
      · simp at hx; subst hx; exact Rat.le_refl
    · rename_i hlt
      refine ⟨by simp [h1], ?_⟩
      intro x hx
      rcases List.mem_append.1 hx with hx | hx
      · exact h2 x hx
      · simp at hx; subst hx; exact Rat.not_lt.1 hlt

theorem isGreatest_snoc {l : List Rat} {o : Option Rat} (h : IsGreatest l o) (q : Rat) :
    IsGreatest (l ++ [q]) (match (generalizing := false) o with
      | none => some q
      | some m => if m < q then some q else some m) := by
  cases o with
  | none =>
    have hl : l = [] := h
    subst hl
    exact ⟨by simp, by intro x hx; simp at hx; subst hx; exact Rat.le_refl⟩
  | some m =>
    obtain ⟨h1, h2⟩ := h
    simp only
    split
    · rename_i hlt
      refine ⟨by simp, ?_⟩
      intro x hx
      rcases List.mem_append.1 hx with hx | hx
      · exact Rat.le_trans (h2 x hx) (Rat.le_of_lt hlt)
      · simp at hx; subst hx; exact Rat.le_refl
    · rename_i hlt
      refine ⟨by simp [h1], ?_⟩
      intro x hx
      rcases List.mem_append.1 hx with hx | hx
      · exact h2 x hx
      · simp at hx; subst hx; exact Rat.not_lt.1 hlt

theorem isShortest_snoc {z : Nat} {ls : List Nat} {m : Nat} (h : IsShortest z ls m) (n : Nat) (hn : n < z) :
    IsShortest z (ls ++ [n]) (min m n) := by
  right
  rcases h with ⟨rfl, rfl⟩ | ⟨h1, h2⟩
  · refine ⟨by simp; omega, ?_⟩
    intro x hx; simp at hx; omega
  · constructor
    · rcases Nat.le_total m n with h | h
      · rw [Nat.min_eq_left h]; simp [h1]
      · rw [Nat.min_eq_right h]; simp
    · intro x hx
      rcases List.mem_append.1 hx with hx | hx
      · have := h2 x hx; omega
      · simp at hx; omega

theorem isLongest_snoc {ls : List Nat} {m : Nat} (h : IsLongest ls m) (n : Nat) : IsLongest (ls ++ [n]) (max m n) := by
  right
  rcases h with ⟨rfl, rfl⟩ | ⟨h1, h2⟩
  · refine ⟨by simp, ?_⟩
    intro x hx; simp at hx; omega
  · constructor
    · rcases Nat.le_total m n with h | h
      · rw [Nat.max_eq_right h]; simp
      · rw [Nat.max_eq_left h]; simp [h1]
    · intro x hx
      rcases List.mem_append.1 hx with hx | hx
      · have := h2 x hx; omega
      · simp at hx; omega


theorem isColumn_capture {t : CellTools} {nulls : List Bytes} {z : Nat} {cells : List Bytes} {s : ColCore} (h : IsColumn t nulls z cells s)
    (capture : Option Nat) (c : Bytes) : IsColumn t nulls z cells (captureCell capture s c) := by
  unfold captureCell
  cases capture with
  | none => exact h
  | some limit =>
    simp only
    split
    · exact h
    · split
      · exact ⟨h.rows, h.empty, h.blank, h.null, h.nan, h.num, h.fin, h.int, h.least, h.greatest, h.shortest, h.longest, h.first,
          h.sample, h.words, h.card⟩
      · split
        · exact h
        · exact ⟨h.rows, h.empty, h.blank, h.null, h.nan, h.num, h.fin, h.int, h.least, h.greatest, h.shortest, h.longest, h.first,
            h.sample, h.words, h.card⟩

theorem words_snoc {t : CellTools} (ht : ∀ c, t.hash c < 2 ^ 32) {cells : List Bytes} {n : Nat} {v : Hll}
    (h : ∃ wss : List (List Bytes), wss.length = cells.length ∧ (∀ p ∈ cells.zip wss, IsWords p.1 p.2) ∧
      n = (wss.map List.length).sum ∧ IsSketch 16 (fun h => ∃ ws ∈ wss, ∃ w ∈ ws, h = t.hash w) v) (c : Bytes) (ws : List Bytes)
    (hws : IsWords c ws) :
    ∃ wss : List (List Bytes), wss.length = (cells ++ [c]).length ∧ (∀ p ∈ (cells ++ [c]).zip wss, IsWords p.1 p.2) ∧
      n + ws.length = (wss.map List.length).sum ∧
      IsSketch 16 (fun h => ∃ ws ∈ wss, ∃ w ∈ ws, h = t.hash w) (ws.foldl (fun v w => v.put (t.hash w)) v) := by
  obtain ⟨wss, h1, h2, h3, h4⟩ := h
  refine ⟨wss ++ [ws], by simp [h1], ?_, by simp [h3], ?_⟩
  · rw [List.zip_append h1.symm]
    intro p hp
    rcases List.mem_append.1 hp with hp | hp
    · exact h2 p hp
    · simp at hp; subst hp; exact hws
  · refine isSketch_congr (puts_sketch t ht ws _ v h4) ?_
    intro y
    simp only [List.mem_append, List.mem_singleton]
    constructor
    · rintro (h | ⟨ws', a, b⟩)
      · exact ⟨ws, Or.inr rfl, h⟩
      · exact ⟨ws', Or.inl a, b⟩
    · rintro ⟨ws', a | rfl, b⟩
      · exact Or.inr ⟨ws', a, b⟩
      · exact Or.inl b

theorem card_snoc {t : CellTools} (ht : ∀ c, t.hash c < 2 ^ 32) {cells : List Bytes} {v : Hll}
    (h : IsSketch 16 (fun h => ∃ c ∈ cells, c ≠ [] ∧ h = t.hash c) v) (c : Bytes) (hc : c ≠ []) :
    IsSketch 16 (fun h => ∃ c' ∈ cells ++ [c], c' ≠ [] ∧ h = t.hash c') (v.put (t.hash c)) := by
  refine isSketch_congr (put_sketch h (t.hash c) (ht c)) ?_
  intro y
  simp only [List.mem_append, List.mem_singleton]
  constructor
  · rintro (h | ⟨c', a, b⟩)
    · exact ⟨c, Or.inr rfl, hc, h⟩
    · exact ⟨c', Or.inl a, b⟩
  · rintro ⟨c', a | rfl, b⟩
    · exact Or.inr ⟨c', a, b⟩
    · exact Or.inl b.2

/-- The state before the numeric part. -/
structure BeforeNumber (t : CellTools) (nulls : List Bytes) (z : Nat) (cells : List Bytes) (c : Bytes) (s : ColCore) : Prop where
  rows : s.rows = (cells ++ [c]).length
  empty : CountIs (fun c => c = []) (cells ++ [c]) s.emptyCount
  blank : CountIs (fun c => c ≠ [] ∧ Blank c) (cells ++ [c]) s.blankCount
  null : CountIs (fun c => ¬ Blank c ∧ NullLike nulls c) (cells ++ [c]) s.nullCount
  nan : CountIs (fun c => ¬ Blank c ∧ t.parse c = .bad) cells s.nanCount
  num : CountIs (fun c => ¬ Blank c ∧ t.parse c ≠ .bad) cells s.numCount
  fin : s.finCount = (numbers t cells).length
  int : s.intCount = ((numbers t cells).filter t.isInt).length
  least : IsLeast (numbers t cells) s.finMin
  greatest : IsGreatest (numbers t cells) s.finMax
  shortest : IsShortest z (((cells ++ [c]).filter (fun c => !c.isEmpty)).map List.length) s.minLenNotEmpty
  longest : IsLongest (((cells ++ [c]).filter (fun c => !c.isEmpty)).map List.length) s.maxLen
  first : s.exampleValue = (cells ++ [c]).headD []
  sample : s.sample = (numbers t cells).take 10000
  words : ∃ wss : List (List Bytes), wss.length = (cells ++ [c]).length ∧ (∀ p ∈ (cells ++ [c]).zip wss, IsWords p.1 p.2) ∧
    s.words = (wss.map List.length).sum ∧ IsSketch 16 (fun h => ∃ ws ∈ wss, ∃ w ∈ ws, h = t.hash w) s.vocab
  card : IsSketch 16 (fun h => ∃ c' ∈ cells ++ [c], c' ≠ [] ∧ h = t.hash c') s.card

theorem numbers_one (t : CellTools) (c : Bytes) : numbers t [c] = if Blank c then [] else
    match t.parse c with
    | .fin q => [q]
    | _ => [] := by
  unfold numbers
  by_cases h : Blank c = true
  · simp [h]
  · simp only [h, Bool.false_eq_true, if_false, Bool.not_false, List.filter_cons, if_true, List.filter_nil, List.filterMap_cons,
      List.filterMap_nil]
    cases t.parse c <;> rfl

theorem isColumn_blank {t : CellTools} {nulls : List Bytes} {z : Nat} {cells : List Bytes} {c : Bytes} {s : ColCore}
    (h : BeforeNumber t nulls z cells c s) (hb : Blank c = true) : IsColumn t nulls z (cells ++ [c]) s := by
  have hn : numbers t (cells ++ [c]) = numbers t cells := by
    rw [numbers_append, numbers_one, if_pos hb, List.append_nil]
  refine ⟨h.rows, h.empty, h.blank, h.null, (countIs_append h.nan c).2 (by simp [hb]), (countIs_append h.num c).2 (by simp [hb]),
    ?_, ?_, ?_, ?_, h.shortest, h.longest, h.first, ?_, h.words, h.card⟩ <;> rw [hn]
  · exact h.fin
  · exact h.int
  · exact h.least
  · exact h.greatest
  · exact h.sample

theorem isColumn_number {t : CellTools} {nulls : List Bytes} {z : Nat} {cells : List Bytes} {c : Bytes} {s : ColCore}
    (h : BeforeNumber t nulls z cells c s) (hb : ¬ Blank c = true) : IsColumn t nulls z (cells ++ [c]) (numericCell t s c) := by
  have hn : numbers t (cells ++ [c]) = numbers t cells ++ (match t.parse c with
      | .fin q => [q]
      | _ => []) := by
    rw [numbers_append, numbers_one, if_neg hb]
  unfold numericCell
  cases hp : t.parse c with
  | bad =>
    simp only [hp, List.append_nil] at hn ⊢
    refine ⟨h.rows, h.empty, h.blank, h.null, (countIs_append h.nan c).1 ⟨hb, hp⟩, (countIs_append h.num c).2 (by simp [hp]),
      ?_, ?_, ?_, ?_, h.shortest, h.longest, h.first, ?_, h.words, h.card⟩ <;> rw [hn]
    · exact h.fin
    · exact h.int
    · exact h.least
    · exact h.greatest
    · exact h.sample
  | inf =>
    simp only [hp, List.append_nil] at hn ⊢
    refine ⟨h.rows, h.empty, h.blank, h.null, (countIs_append h.nan c).2 (by simp [hp]),
      (countIs_append h.num c).1 ⟨hb, by simp [hp]⟩,
      ?_, ?_, ?_, ?_, h.shortest, h.longest, h.first, ?_, h.words, h.card⟩ <;> rw [hn]
    · exact h.fin
    · exact h.int
    · exact h.least
    · exact h.greatest
    · exact h.sample
  | fin q =>
    simp only [hp] at hn ⊢
    refine ⟨h.rows, h.empty, h.blank, h.null, (countIs_append h.nan c).2 (by simp [hp]),
      (countIs_append h.num c).1 ⟨hb, by simp [hp]⟩,
      ?_, ?_, ?_, ?_, h.shortest, h.longest, h.first, ?_, h.words, h.card⟩ <;> rw [hn]
    · simp [h.fin]
    · simp only [List.filter_append, List.length_append, h.int]
      by_cases hi : t.isInt q = true
      · simp [hi]
      · simp [hi]
    · exact isLeast_snoc h.least q
    · exact isGreatest_snoc h.greatest q
    · simp only [h.sample, List.length_take]
      by_cases hl : (numbers t cells).length < 10000
      · rw [if_pos (by omega), List.take_of_length_le (by omega), List.take_of_length_le (by simp; omega)]
      · rw [if_neg (by omega), List.take_append_of_le_length (by omega)]

/-- One more cell. -/
theorem isColumn_cell {t : CellTools} (ht : ∀ c, t.hash c < 2 ^ 32) {nulls : List Bytes} {z : Nat} {cells : List Bytes} {s : ColCore}
    (h : IsColumn t nulls z cells s) (capture : Option Nat) (c : Bytes) (hc : c.length < z) :
    IsColumn t nulls z (cells ++ [c]) (coreCell t nulls capture s c) := by
  have hfirst : ∀ e : Bytes, (if s.rows = 0 then c else s.exampleValue) = (cells ++ [c]).headD [] := by
    intro _
    rw [h.rows, h.first]
    cases cells <;> simp
  unfold coreCell
  by_cases hz : s.rows = 0
  all_goals
    have hf := hfirst []
    simp only [hz, if_true, if_false] at hf ⊢
    by_cases he : c = []
    · subst he
      simp only [List.isEmpty_nil, if_true]
      refine isColumn_blank ⟨by simp [hz, ← h.rows], (countIs_append h.empty []).1 rfl, (countIs_append h.blank []).2 (by simp),
        (countIs_append h.null []).2 (by simp [blank_nil]), h.nan, h.num, h.fin, h.int, h.least, h.greatest, ?_, ?_, hf, h.sample, ?_, ?_⟩ rfl
      · simpa using h.shortest
      · simpa using h.longest
      · simpa using words_snoc ht h.words [] [] ⟨by simp, Or.inl (by simp)⟩
      · refine isSketch_congr h.card ?_
        intro y
        simp
    · have he' : c.isEmpty = false := by simpa using he
      simp only [he', Bool.false_eq_true, if_false]
      have key : ∀ (bc nc : Nat), CountIs (fun c => c ≠ [] ∧ Blank c) (cells ++ [c]) bc →
          CountIs (fun c => ¬ Blank c ∧ NullLike nulls c) (cells ++ [c]) nc →
          ∀ s' : ColCore, s' = { s with
            rows := s.rows + 1, exampleValue := (cells ++ [c]).headD []
            minLen := min s.minLen c.length
            maxLen := max s.maxLen c.length
            minLenNotEmpty := min s.minLenNotEmpty c.length
            card := s.card.put (t.hash c)
            vocab := (tokens c).foldl (fun v w => v.put (t.hash w)) s.vocab
            words := s.words + (tokens c).length
            blankCount := bc
            nullCount := nc } → BeforeNumber t nulls z cells c s' := by
        rintro bc nc h1 h2 s' rfl
        refine ⟨by simp [h.rows], (countIs_append h.empty c).2 he, h1, h2, h.nan, h.num, h.fin, h.int, h.least, h.greatest, ?_, ?_, rfl,
          h.sample, ?_, card_snoc ht h.card c he⟩
        · simp only [List.filter_append, List.filter_cons, he', Bool.not_false, if_true, List.filter_nil, List.map_append, List.map_cons,
            List.map_nil]
          exact isShortest_snoc h.shortest _ hc
        · simp only [List.filter_append, List.filter_cons, he', Bool.not_false, if_true, List.filter_nil, List.map_append, List.map_cons,
            List.map_nil]
          exact isLongest_snoc h.longest _
        · exact words_snoc ht h.words c (tokens c) (tokensFrom_spec c [] (by simp))
      by_cases hb : Blank c = true
      · have hb' : isBlank c = true := blank_eq c ▸ hb
        simp only [hb', if_true]
        refine isColumn_blank (key (s.blankCount + 1) s.nullCount ((countIs_append h.blank c).1 ⟨he, hb⟩)
          ((countIs_append h.null c).2 (by simp [hb])) _ ?_) hb
        rw [← hf]; all_goals first | rfl | (rw [hz])
      · have hb' : ¬ isBlank c = true := blank_eq c ▸ hb
        simp only [hb', if_false]
        apply isColumn_capture
        apply isColumn_number _ hb
        by_cases hm : matchNan nulls c = true
        · refine key s.blankCount (s.nullCount + 1) ((countIs_append h.blank c).2 (by simp [hb]))
            ((countIs_append h.null c).1 ⟨hb, (matchNan_spec _ _).1 hm⟩) _ ?_
          rw [← hf]; simp only [hm, if_true]; all_goals first | rfl | (rw [hz])
        · refine key s.blankCount s.nullCount ((countIs_append h.blank c).2 (by simp [hb]))
            ((countIs_append h.null c).2 (fun hh => hm ((matchNan_spec _ _).2 hh.2))) _ ?_
          rw [← hf]; simp only [hm]; all_goals first | rfl | (rw [hz]; rfl)

theorem isColumn_cells {t : CellTools} (ht : ∀ c, t.hash c < 2 ^ 32) {nulls : List Bytes} {z : Nat} (capture : Option Nat) :
    ∀ (more cells : List Bytes) (s : ColCore), IsColumn t nulls z cells s → (∀ c ∈ more, c.length < z) →
    IsColumn t nulls z (cells ++ more) (more.foldl (coreCell t nulls capture) s) := by
  intro more
  induction more with
  | nil => intro cells s h _; simpa using h
  | cons c more ih =>
    intro cells s h hl
    have := ih (cells ++ [c]) _ (isColumn_cell ht h capture c (hl c (by simp))) (fun x hx => hl x (by simp [hx]))
    simpa using this


theorem isColumn_new (t : CellTools) (nulls : List Bytes) (z : Nat) (hz : z = 2 ^ 64 - 1) : IsColumn t nulls z [] {} := by
  subst hz
  have hsk : IsSketch 16 (fun _ => False) ⟨16, List.replicate (2 ^ 16) 0⟩ := by
    obtain ⟨s, e, k⟩ := new_sketch 16 ⟨by decide, by decide⟩
    have : Hll.new 16 = .ok ⟨16, List.replicate (2 ^ 16) 0⟩ := by
      unfold Hll.new; rw [if_neg (by omega), if_neg (by omega)]
    rw [this] at e
    cases e; exact k
  exact ⟨rfl, .nil, .nil, .nil, .nil, .nil, rfl, rfl, rfl, rfl, Or.inl ⟨rfl, rfl⟩, Or.inl ⟨rfl, rfl⟩, rfl, rfl,
    ⟨[], rfl, by simp, rfl, isSketch_congr hsk (by simp)⟩, isSketch_congr hsk (by simp)⟩

theorem coreCell_minLen (t : CellTools) (nulls : List Bytes) (capture : Option Nat) (s : ColCore) (c : Bytes)
    (h : s.minLen = s.minLenNotEmpty) : (coreCell t nulls capture s c).minLen = (coreCell t nulls capture s c).minLenNotEmpty := by
  have hn : ∀ s : ColCore, s.minLen = s.minLenNotEmpty → (numericCell t s c).minLen = (numericCell t s c).minLenNotEmpty := by
    intro s h; unfold numericCell; split <;> exact h
  have hc : ∀ s : ColCore, s.minLen = s.minLenNotEmpty → (captureCell capture s c).minLen = (captureCell capture s c).minLenNotEmpty := by
    intro s h; unfold captureCell; split
    · exact h
    · split
      · exact h
      · split
        · exact h
        · split <;> exact h
  unfold coreCell
  by_cases h0 : s.rows = 0 <;> by_cases he : c.isEmpty = true <;> by_cases hb : isBlank c = true <;>
    by_cases hm : matchNan nulls c = true <;> simp only [h0, he, hb, hm, if_true, if_false, Bool.false_eq_true] <;>
    first
    | exact h
    | (simp only [h]; done)
    | (apply hc; apply hn; simp only [h])

theorem foldl_minLen (t : CellTools) (nulls : List Bytes) (capture : Option Nat) : ∀ (cells : List Bytes) (s : ColCore),
    s.minLen = s.minLenNotEmpty →
    (cells.foldl (coreCell t nulls capture) s).minLen = (cells.foldl (coreCell t nulls capture) s).minLenNotEmpty := by
  intro cells
  induction cells with
  | nil => intro s h; exact h
  | cons c cells ih => intro s h; exact ih _ (coreCell_minLen t nulls capture s c h)

/-! ### Captured values -/

theorem numericCell_captured (t : CellTools) (s : ColCore) (c : Bytes) :
    (numericCell t s c).captured = s.captured ∧ (numericCell t s c).overflowed = s.overflowed := by
  unfold numericCell; split <;> exact ⟨rfl, rfl⟩

theorem captureCell_congr (capture : Option Nat) (s s' : ColCore) (c : Bytes) (h1 : s.captured = s'.captured)
    (h2 : s.overflowed = s'.overflowed) :
    (captureCell capture s c).captured = (captureCell capture s' c).captured ∧
    (captureCell capture s c).overflowed = (captureCell capture s' c).overflowed := by
  unfold captureCell
  cases capture with
  | none => exact ⟨h1, h2⟩
  | some limit =>
    simp only [h1, h2]
    by_cases a : s'.overflowed = true
    · simp only [a, if_true]; exact ⟨h1, by rw [h2, a]⟩
    · simp only [a, Bool.false_eq_true, if_false]
      by_cases b : s'.captured.length < limit
      · simp only [b, if_true]; exact ⟨trivial, trivial⟩
      · simp only [b, if_false]
        by_cases d : (s'.captured.any (fun kn => kn.1 = c)) = true
        · simp only [d, if_true]; exact ⟨h1, h2⟩
        · simp only [d, Bool.false_eq_true, if_false]; exact ⟨trivial, trivial⟩

theorem coreCell_captured (t : CellTools) (nulls : List Bytes) (capture : Option Nat) (s : ColCore) (c : Bytes) :
    (Blank c = true → (coreCell t nulls capture s c).captured = s.captured ∧ (coreCell t nulls capture s c).overflowed = s.overflowed) ∧
    (¬ Blank c = true → (coreCell t nulls capture s c).captured = (captureCell capture s c).captured ∧
      (coreCell t nulls capture s c).overflowed = (captureCell capture s c).overflowed) := by
  constructor
  · intro hb
    have hb' : isBlank c = true := blank_eq c ▸ hb
    unfold coreCell
    by_cases h0 : s.rows = 0 <;> by_cases he : c.isEmpty = true <;> simp only [h0, he, hb', if_true, if_false, Bool.false_eq_true] <;>
      exact ⟨trivial, trivial⟩
  · intro hb
    have hb' : ¬ isBlank c = true := blank_eq c ▸ hb
    have he : ¬ c.isEmpty = true := by
      intro he
      have : c = [] := by simpa using he
      subst this; exact hb rfl
    unfold coreCell
    by_cases h0 : s.rows = 0 <;> by_cases hm : matchNan nulls c = true <;>
      simp only [h0, he, hb', hm, if_true, if_false, Bool.false_eq_true] <;>
      · apply captureCell_congr
        · rw [(numericCell_captured t _ c).1]
        · rw [(numericCell_captured t _ c).2]

theorem keys_countUp (c : Bytes) : ∀ l : List (Bytes × Nat), (countUp c l).map (·.1) =
    if c ∈ l.map (·.1) then l.map (·.1) else l.map (·.1) ++ [c] := by
  intro l
  induction l with
  | nil => simp [countUp]
  | cons kn l ih =>
    obtain ⟨k, n⟩ := kn
    simp only [countUp]
    by_cases h : k = c
    · subst h; simp
    · rw [if_neg h, List.map_cons, ih]
      have h' : ¬ c = k := fun e => h e.symm
      by_cases hm : c ∈ l.map (·.1)
      · rw [if_pos hm, if_pos (by simp only [List.map_cons, List.mem_cons]; exact Or.inr hm)]; rfl
      · rw [if_neg hm, if_neg (by simp only [List.map_cons, List.mem_cons, not_or]; exact ⟨h', hm⟩)]; rfl

theorem mem_countUp (c : Bytes) : ∀ l : List (Bytes × Nat), (l.map (·.1)).Nodup → ∀ kn ∈ countUp c l,
    (kn ∈ l ∧ kn.1 ≠ c) ∨ (kn.1 = c ∧ ((∃ n, (c, n) ∈ l ∧ kn.2 = n + 1) ∨ (c ∉ l.map (·.1) ∧ kn.2 = 1))) := by
  intro l
  induction l with
  | nil => intro _ kn hkn; simp [countUp] at hkn; subst hkn; exact Or.inr ⟨rfl, Or.inr ⟨by simp, rfl⟩⟩
  | cons x l ih =>
    obtain ⟨k, n⟩ := x
    intro hnd kn hkn
    obtain ⟨hnd1, hnd2⟩ := List.nodup_cons.1 hnd
    simp only [countUp] at hkn
    by_cases h : k = c
    · subst h
      rw [if_pos rfl] at hkn
      rcases List.mem_cons.1 hkn with rfl | hkn
      · exact Or.inr ⟨rfl, Or.inl ⟨n, by simp, rfl⟩⟩
      · refine Or.inl ⟨by simp [hkn], ?_⟩
        intro e
        exact hnd1 (List.mem_map.2 ⟨kn, hkn, e⟩)
    · rw [if_neg h] at hkn
      rcases List.mem_cons.1 hkn with rfl | hkn
      · exact Or.inl ⟨by simp, h⟩
      · rcases ih hnd2 kn hkn with ⟨a, b⟩ | ⟨a, ⟨m, b1, b2⟩ | ⟨b1, b2⟩⟩
        · exact Or.inl ⟨by simp [a], b⟩
        · exact Or.inr ⟨a, Or.inl ⟨m, by simp [b1], b2⟩⟩
        · refine Or.inr ⟨a, Or.inr ⟨?_, b2⟩⟩
          simp only [List.map_cons, List.mem_cons, not_or]
          exact ⟨fun e => h e.symm, b1⟩

theorem capture_step {limit : Nat} {vals : List Bytes} {s : ColCore} (h : IsCapture limit vals s) (c : Bytes) (s' : ColCore)
    (e1 : s'.captured = (captureCell (some limit) s c).captured) (e2 : s'.overflowed = (captureCell (some limit) s c).overflowed) :
    IsCapture limit (vals ++ [c]) s' := by
  have hsub : ∀ k ∈ s.captured, 1 ≤ k.2 ∧ k.2 ≤ (vals ++ [c]).count k.1 := by
    intro k hk
    obtain ⟨a, b⟩ := h.sub k hk
    refine ⟨a, ?_⟩
    rw [List.count_append]; omega
  simp only [captureCell] at e1 e2
  by_cases ho : s.overflowed = true
  · rw [if_pos ho] at e1 e2
    obtain ⟨hl, v, hv, hvn⟩ := h.over ho
    refine ⟨by rw [e1]; exact h.nodup, by rw [e1]; exact hsub, by rw [e1]; exact h.size, ?_, ?_, ?_⟩
    · rw [e2, ho]; intro hh; cases hh
    · rw [e1]; exact fun _ => ⟨hl, v, by simp [hv], hvn⟩
    · rw [e1]; intro hh; omega
  · rw [if_neg ho] at e1 e2
    have ho' : s.overflowed = false := by simpa using ho
    by_cases hl : s.captured.length < limit
    · rw [if_pos hl] at e1 e2
      simp only at e1 e2
      have hk := keys_countUp c s.captured
      have hex := h.exact hl
      have hall := h.all ho'
      refine ⟨?_, ?_, ?_, ?_, ?_, ?_⟩
      · rw [e1, hk]
        split
        · exact h.nodup
        · rename_i hm
          rw [List.nodup_append]
          refine ⟨h.nodup, by simp, ?_⟩
          intro a ha b hb
          simp at hb; subst hb
          intro e; subst e; exact hm ha
      all_goals first | (rw [e1]) | skip
      · intro kn hkn
        rcases mem_countUp c _ h.nodup kn hkn with ⟨a, b⟩ | ⟨a, ⟨n, b1, b2⟩ | ⟨b1, b2⟩⟩
        · exact hsub kn a
        · obtain ⟨u, v⟩ := h.sub _ b1
          simp only at u v
          rw [a, List.count_append, List.count_singleton_self]; omega
        · rw [a, List.count_append, List.count_singleton_self]; omega
      · have := congrArg List.length hk
        rw [List.length_map] at this
        rw [this]
        split <;> simp <;> omega
      · intro _ v hv
        rw [hk]
        rcases List.mem_append.1 hv with hv | hv
        · split
          · exact hall v hv
          · exact List.mem_append.2 (Or.inl (hall v hv))
        · simp at hv; subst hv
          split
          · assumption
          · simp
      · rw [e2, ho']; intro hh; cases hh
      · intro _ kn hkn
        rcases mem_countUp c _ h.nodup kn hkn with ⟨a, b⟩ | ⟨a, ⟨n, b1, b2⟩ | ⟨b1, b2⟩⟩
        · rw [List.count_append, hex kn a, List.count_eq_zero_of_not_mem (l := [c])]
          · rfl
          · simp only [List.mem_singleton]; exact b
        · have := hex _ b1
          simp only at this
          rw [a, List.count_append, List.count_singleton_self]; omega
        · rw [a, List.count_append, List.count_singleton_self, b2, List.count_eq_zero_of_not_mem (l := vals)]
          intro hv; exact b1 (hall c hv)
    · rw [if_neg hl] at e1 e2
      by_cases hm : (s.captured.any (fun kn => kn.1 = c)) = true
      · rw [if_pos hm] at e1 e2
        refine ⟨by rw [e1]; exact h.nodup, by rw [e1]; exact hsub, by rw [e1]; exact h.size, ?_, ?_, ?_⟩
        · rw [e1]
          intro _ v hv
          rcases List.mem_append.1 hv with hv | hv
          · exact h.all ho' v hv
          · simp at hv; subst hv
            obtain ⟨kn, a, b⟩ := List.any_eq_true.1 hm
            exact List.mem_map.2 ⟨kn, a, by simpa using b⟩
        · rw [e2, ho']; intro hh; cases hh
        · rw [e1]; intro hh; exact absurd hh hl
      · rw [if_neg hm] at e1 e2
        simp only at e1 e2
        refine ⟨by rw [e1]; exact h.nodup, by rw [e1]; exact hsub, by rw [e1]; exact h.size, ?_, ?_, ?_⟩
        · rw [e2]; intro hh; cases hh
        · rw [e1]
          refine fun _ => ⟨by have := h.size; omega, c, by simp, ?_⟩
          intro hh
          apply hm
          obtain ⟨kn, a, b⟩ := List.mem_map.1 hh
          exact List.any_eq_true.2 ⟨kn, a, by simpa using b⟩
        · rw [e1]; intro hh; exact absurd hh hl

theorem capture_cells (t : CellTools) (nulls : List Bytes) (limit : Nat) : ∀ (more cells : List Bytes) (s : ColCore),
    IsCapture limit (cells.filter (fun c => !Blank c)) s →
    IsCapture limit ((cells ++ more).filter (fun c => !Blank c)) (more.foldl (coreCell t nulls (some limit)) s) := by
  intro more
  induction more with
  | nil => intro cells s h; simpa using h
  | cons c more ih =>
    intro cells s h
    have e : cells ++ c :: more = (cells ++ [c]) ++ more := by simp
    rw [e]
    apply ih
    obtain ⟨h1, h2⟩ := coreCell_captured t nulls (some limit) s c
    by_cases hb : Blank c = true
    · obtain ⟨a, b⟩ := h1 hb
      have : (cells ++ [c]).filter (fun c => !Blank c) = cells.filter (fun c => !Blank c) := by simp [hb]
      rw [this]
      exact ⟨by rw [a]; exact h.nodup, by rw [a]; exact h.sub, by rw [a]; exact h.size, by rw [a, b]; exact h.all,
        by rw [a, b]; exact h.over, by rw [a]; exact h.exact⟩
    · obtain ⟨a, b⟩ := h2 hb
      have : (cells ++ [c]).filter (fun c => !Blank c) = cells.filter (fun c => !Blank c) ++ [c] := by simp [hb]
      rw [this]
      exact capture_step h c _ a b

theorem capture_none (t : CellTools) (nulls : List Bytes) : ∀ (cells : List Bytes) (s : ColCore),
    (cells.foldl (coreCell t nulls none) s).captured = s.captured ∧ (cells.foldl (coreCell t nulls none) s).overflowed = s.overflowed := by
  intro cells
  induction cells with
  | nil => intro s; exact ⟨rfl, rfl⟩
  | cons c cells ih =>
    intro s
    obtain ⟨a, b⟩ := ih (coreCell t nulls none s c)
    obtain ⟨h1, h2⟩ := coreCell_captured t nulls none s c
    simp only [List.foldl_cons]
    rw [a, b]
    by_cases hb : Blank c = true
    · exact h1 hb
    · exact h2 hb

/-! ### Averages -/

theorem sumCell_fold (t : CellTools) : ∀ (cells : List Bytes) (a : ColSums),
    (cells.foldl (sumCell t) a).numSum = a.numSum + (numbers t cells).sum ∧
    (cells.foldl (sumCell t) a).numCount = a.numCount + (numbers t cells).length ∧
    (cells.foldl (sumCell t) a).strCount = a.strCount + (cells.filter (fun c => !c.isEmpty)).length ∧
    (cells.foldl (sumCell t) a).lenSum = a.lenSum + (cells.map List.length).sum := by
  intro cells
  induction cells with
  | nil => intro a; simp [numbers, Rat.add_zero]
  | cons c cells ih =>
    intro a
    have hcons : numbers t (c :: cells) = numbers t [c] ++ numbers t cells := numbers_append t [c] cells
    obtain ⟨h1, h2, h3, h4⟩ := ih (sumCell t a c)
    rw [List.foldl_cons, h1, h2, h3, h4, hcons, numbers_one]
    unfold sumCell
    by_cases he : c = []
    · subst he; simp [blank_nil]
    · have he' : c.isEmpty = false := by simpa using he
      simp only [he', Bool.false_eq_true, if_false]
      by_cases hb : isBlank c = true
      · have hb' : Blank c = true := (blank_eq c).symm ▸ hb
        simp only [hb, hb', if_true]
        refine ⟨by simp, by simp, ?_, ?_⟩
        · simp only [List.filter_cons, he', Bool.not_false, if_true, List.length_cons]; omega
        · simp only [List.map_cons, List.sum_cons]; omega
      · have hb' : ¬ Blank c = true := (blank_eq c).symm ▸ hb
        simp only [hb, hb', Bool.false_eq_true, if_false]
        cases hp : t.parse c <;> simp only
        all_goals
          refine ⟨?_, ?_, ?_, ?_⟩
          · simp [Rat.add_assoc]
          · simp; try omega
          · simp only [List.filter_cons, he', Bool.not_false, if_true, List.length_cons]; omega
          · simp only [List.map_cons, List.sum_cons]; omega

theorem updateAvg_spec (S s : Rat) (N n : Nat) (hn : 0 < n) (hS : N = 0 → S = 0) :
    updateAvg (some (S / N)) s n (N + n) = some ((S + s) / ((N + n : Nat) : Rat)) := by
  unfold updateAvg
  simp only
  rw [if_neg (by omega)]
  congr 1
  have h1 : (n : Rat) ≠ 0 := by simp; omega
  have h2 : ((N + n : Nat) : Rat) ≠ 0 := by
    intro h
    have : N + n = 0 := by exact_mod_cast h
    omega
  rw [Rat.natCast_add] at h2 ⊢
  by_cases hN : N = 0
  · have := hS hN
    subst this; subst hN
    have h0 : ((0 : Nat) : Rat) = 0 := rfl
    rw [h0] at h2 ⊢
    grind
  · have h3 : (N : Rat) ≠ 0 := by simp; omega
    grind

/-! ### Data sets -/

theorem analyzeFrom_get (t : CellTools) (nulls : List Bytes) (captured : List Nat) (limit : Nat) : ∀ (ss : List ColStats) (cs : List (List Bytes))
    (i : Nat), cs.length = ss.length → (analyzeFrom t nulls captured limit i ss cs).length = ss.length ∧
    ∀ j s, ss[j]? = some s → (analyzeFrom t nulls captured limit i ss cs)[j]? =
      some (analyzeColumn t nulls (if captured.contains (i + j) then some limit else none) s (cs.getD j [])) := by
  intro ss
  induction ss with
  | nil => intro cs i h; refine ⟨by cases cs <;> rfl, ?_⟩; intro j s hs; simp at hs
  | cons x ss ih =>
    intro cs i h
    cases cs with
    | nil => simp at h
    | cons c cs =>
      obtain ⟨a, b⟩ := ih cs (i + 1) (by simpa using h)
      simp only [analyzeFrom]
      refine ⟨by simp [a], ?_⟩
      intro j s hs
      cases j with
      | zero => simp at hs; subst hs; simp
      | succ j =>
        simp only [List.getElem?_cons_succ] at hs ⊢
        rw [b j s hs]
        simp only [List.getD_cons_succ]
        have : i + 1 + j = i + (j + 1) := by omega
        rw [this]

/-- The statistics of one column of all examples. -/
def columnFold (t : CellTools) (nulls : List Bytes) (capture : Option Nat) (j : Nat) (s : ColStats) (es : List TextExample) : ColStats :=
  es.foldl (fun s e => analyzeColumn t nulls capture s (e.columns.getD j [])) s

theorem dataset_get (t : CellTools) (nulls : List Bytes) (captured : List Nat) (limit n : Nat) : ∀ (es : List TextExample) (ss : List ColStats),
    (∀ e ∈ es, e.columns.length = n) → ss.length = n →
    (es.foldl (fun ss e => analyzeFrom t nulls captured limit 0 ss e.columns) ss).length = n ∧
    ∀ j s, ss[j]? = some s → (es.foldl (fun ss e => analyzeFrom t nulls captured limit 0 ss e.columns) ss)[j]? =
      some (columnFold t nulls (if captured.contains j then some limit else none) j s es) := by
  intro es
  induction es with
  | nil => intro ss _ hl; exact ⟨hl, fun j s hs => hs⟩
  | cons e es ih =>
    intro ss he hl
    obtain ⟨a, b⟩ := analyzeFrom_get t nulls captured limit ss e.columns 0 (by rw [he e (by simp), hl])
    obtain ⟨c, d⟩ := ih _ (fun e' he' => he e' (by simp [he'])) (a.trans hl)
    refine ⟨c, fun j s hs => ?_⟩
    have := b j s hs
    rw [Nat.zero_add] at this
    exact d j _ this

theorem columnFold_core (t : CellTools) (nulls : List Bytes) (capture : Option Nat) (j : Nat) : ∀ (es : List TextExample) (s : ColStats),
    (columnFold t nulls capture j s es).core = (es.flatMap (fun e => e.columns.getD j [])).foldl (coreCell t nulls capture) s.core := by
  intro es
  induction es with
  | nil => intro s; rfl
  | cons e es ih =>
    intro s
    simp only [columnFold, List.foldl_cons, List.flatMap_cons, List.foldl_append] at ih ⊢
    rw [ih]; rfl

theorem wholeColumn_unpadded (j : Nat) (es : List TextExample) (h : ∀ e ∈ es, e.padding = 0) :
    wholeColumn j es = es.flatMap (fun e => e.columns.getD j []) := by
  induction es with
  | nil => rfl
  | cons e es ih =>
    have h0 := h e (by simp)
    simp only [wholeColumn, List.flatMap_cons] at ih ⊢
    rw [ih (fun e' he' => h e' (by simp [he'])), h0, Nat.sub_zero, List.take_length]

theorem columnFold_mean (t : CellTools) (ht : ∀ c, t.hash c < 2 ^ 32) (nulls : List Bytes) (capture : Option Nat) (j : Nat) :
    ∀ (es : List TextExample) (cells : List Bytes) (s : ColStats), IsColumn t nulls (2 ^ 64 - 1) cells s.core →
    (∀ e ∈ es, ∀ c ∈ e.columns.getD j [], c.length < 2 ^ 64 - 1) →
    (∀ e ∈ es, numbers t (e.columns.getD j []) ≠ []) →
    s.mean = some ((numbers t cells).sum / ((numbers t cells).length : Nat)) →
    (columnFold t nulls capture j s es).mean =
      some ((numbers t (cells ++ es.flatMap (fun e => e.columns.getD j []))).sum /
        ((numbers t (cells ++ es.flatMap (fun e => e.columns.getD j []))).length : Nat)) := by
  intro es
  induction es with
  | nil => intro cells s _ _ _ hm; simpa [columnFold] using hm
  | cons e es ih =>
    intro cells s hc hl hne hm
    have hcol := isColumn_cells ht capture (e.columns.getD j []) cells s.core hc (hl e (by simp))
    have hassoc : cells ++ (e :: es).flatMap (fun e => e.columns.getD j []) =
        (cells ++ e.columns.getD j []) ++ es.flatMap (fun e => e.columns.getD j []) := by simp
    rw [hassoc]
    refine ih (cells ++ e.columns.getD j []) (analyzeColumn t nulls capture s (e.columns.getD j [])) hcol
      (fun e' he' => hl e' (by simp [he'])) (fun e' he' => hne e' (by simp [he'])) ?_
    obtain ⟨h1, h2, _, _⟩ := sumCell_fold t (e.columns.getD j []) {}
    have hfin := hcol.fin
    rw [numbers_append, List.length_append] at hfin
    simp only [analyzeColumn, h1, h2, hfin, hm, Nat.zero_add, Rat.zero_add]
    rw [updateAvg_spec _ _ _ _ (List.length_pos_iff.2 (hne e (by simp))), numbers_append, List.sum_append, List.length_append]
    intro h0
    rw [List.length_eq_zero_iff.1 h0]; rfl

theorem columnFold_avg (t : CellTools) (ht : ∀ c, t.hash c < 2 ^ 32) (nulls : List Bytes) (capture : Option Nat) (j : Nat) :
    ∀ (es : List TextExample) (cells : List Bytes) (s : ColStats), IsColumn t nulls (2 ^ 64 - 1) cells s.core →
    (∀ e ∈ es, ∀ c ∈ e.columns.getD j [], c.length < 2 ^ 64 - 1) →
    (∀ e ∈ es, e.columns.getD j [] ≠ [] ∧ ∀ c ∈ e.columns.getD j [], c ≠ []) →
    s.avgLen = some ((((cells.map List.length).sum : Nat) : Rat) / ((cells.length : Nat) : Rat)) →
    (columnFold t nulls capture j s es).avgLen =
      some (((((cells ++ es.flatMap (fun e => e.columns.getD j [])).map List.length).sum : Nat) : Rat) /
        (((cells ++ es.flatMap (fun e => e.columns.getD j [])).length : Nat) : Rat)) := by
  intro es
  induction es with
  | nil => intro cells s _ _ _ hm; simpa [columnFold] using hm
  | cons e es ih =>
    intro cells s hc hl hne hm
    have hcol := isColumn_cells ht capture (e.columns.getD j []) cells s.core hc (hl e (by simp))
    have hassoc : cells ++ (e :: es).flatMap (fun e => e.columns.getD j []) =
        (cells ++ e.columns.getD j []) ++ es.flatMap (fun e => e.columns.getD j []) := by simp
    rw [hassoc]
    refine ih (cells ++ e.columns.getD j []) (analyzeColumn t nulls capture s (e.columns.getD j [])) hcol
      (fun e' he' => hl e' (by simp [he'])) (fun e' he' => hne e' (by simp [he'])) ?_
    obtain ⟨_, _, h3, h4⟩ := sumCell_fold t (e.columns.getD j []) {}
    obtain ⟨hn1, hn2⟩ := hne e (by simp)
    have hfil : (e.columns.getD j []).filter (fun c => !c.isEmpty) = e.columns.getD j [] := by
      rw [List.filter_eq_self]
      intro c hcm; simpa using hn2 c hcm
    rw [hfil] at h3
    have hrows := hcol.rows
    rw [List.length_append] at hrows
    simp only [analyzeColumn, h3, h4, hrows, hm, Nat.zero_add]
    rw [updateAvg_spec _ _ _ _ (List.length_pos_iff.2 hn1), List.map_append, List.sum_append, List.length_append, Rat.natCast_add (List.sum _)]
    intro h0
    rw [List.length_eq_zero_iff.1 h0]; rfl

end Mlio
