import Verif.Model.Glob
import Verif.Spec.Glob

namespace Mlio
open Spec

/-- The parts of the model for those of the specification. -/
def itemRange : PatChar × Option PatChar → UInt8 × UInt8
  | (a, none) => (a.c, a.c)
  | (a, some b) => (a.c, b.c)

def patTok : PatPart → GlobTok
  | .char x => .lit x.c
  | .any => .any
  | .star => .star
  | .set neg items => .set neg (items.map itemRange)

theorem bracketChar_bytes (x : PatChar) (h : x.Ok [93, 92, 45, 33, 94, 91]) (r : Bytes) :
    bracketChar (x.bytes ++ r) = some (x.c, r) := by
  obtain ⟨c, e⟩ := x
  obtain ⟨_, h2⟩ := h
  cases e with
  | true => simp [PatChar.bytes, bracketChar]
  | false =>
    simp only [Bool.false_eq_true, false_or] at h2
    have : c ≠ 92 := by rintro rfl; simp at h2
    simp [PatChar.bytes, bracketChar, this]

theorem patChar_head (x : PatChar) (h : x.Ok [93, 92, 45, 33, 94, 91]) (r : Bytes) :
    (x.bytes ++ r).head? ≠ some 93 ∧ (x.bytes ++ r).head? ≠ some 45 ∧ (x.bytes ++ r).head? ≠ some 33 ∧
      (x.bytes ++ r).head? ≠ some 94 ∧ x.bytes ++ r ≠ [] := by
  obtain ⟨c, e⟩ := x
  obtain ⟨_, h2⟩ := h
  cases e with
  | true => simp [PatChar.bytes]
  | false =>
    simp only [Bool.false_eq_true, false_or] at h2
    simp only [PatChar.bytes, Bool.false_eq_true, if_false, List.cons_append, List.nil_append, List.head?_cons, Option.some.injEq, ne_eq]
    refine ⟨?_, ?_, ?_, ?_, by simp⟩ <;> rintro rfl <;> simp at h2

def ItemOk (i : PatChar × Option PatChar) : Prop :=
  i.1.Ok [93, 92, 45, 33, 94, 91] ∧ ∀ b, i.2 = some b → b.Ok [93, 92, 45, 33, 94, 91]

theorem itemBytes_head (i : PatChar × Option PatChar) (h : ItemOk i) (r : Bytes) :
    (itemBytes i ++ r).head? ≠ some 93 ∧ (itemBytes i ++ r).head? ≠ some 45 ∧ (itemBytes i ++ r).head? ≠ some 33 ∧
      (itemBytes i ++ r).head? ≠ some 94 := by
  obtain ⟨a, o⟩ := i
  cases o with
  | none => have := patChar_head a h.1 r; exact ⟨this.1, this.2.1, this.2.2.1, this.2.2.2.1⟩
  | some b =>
    have := patChar_head a h.1 ([45] ++ b.bytes ++ r)
    simp only [itemBytes, List.append_assoc] at this ⊢
    exact ⟨this.1, this.2.1, this.2.2.1, this.2.2.2.1⟩

theorem items_head (is : List (PatChar × Option PatChar)) (h : ∀ i ∈ is, ItemOk i) (r : Bytes) :
    (is.flatMap itemBytes ++ [93] ++ r).head? ≠ some 45 := by
  cases is with
  | nil => simp
  | cons i is =>
    have := (itemBytes_head i (h i (by simp)) (is.flatMap itemBytes ++ [93] ++ r)).2.1
    simpa [List.append_assoc] using this

theorem bracketItems_bytes (is : List (PatChar × Option PatChar)) (h : ∀ i ∈ is, ItemOk i) (r : Bytes) (first : Bool)
    (hf : first = true → is ≠ []) (fuel : Nat) (hfuel : is.length < fuel) :
    bracketItems fuel first (is.flatMap itemBytes ++ [93] ++ r) = some (is.map itemRange, r) := by
  induction is generalizing first fuel with
  | nil =>
    cases first with
    | true => simp at hf
    | false =>
      obtain ⟨n, rfl⟩ : ∃ n, fuel = n + 1 := ⟨fuel - 1, by simp at hfuel; omega⟩
      simp [bracketItems]
  | cons i is ih =>
    obtain ⟨n, rfl⟩ : ∃ n, fuel = n + 1 := ⟨fuel - 1, by simp at hfuel; omega⟩
    have hrest := ih (fun j hj => h j (by simp [hj])) false (by simp) n (by simp at hfuel; omega)
    have hhead := items_head is (fun j hj => h j (by simp [hj])) r
    have hi := h i (by simp)
    have h93 := (itemBytes_head i hi (is.flatMap itemBytes ++ [93] ++ r)).1
    have e : (i :: is).flatMap itemBytes ++ [93] ++ r = itemBytes i ++ (is.flatMap itemBytes ++ [93] ++ r) := by
      simp [List.append_assoc]
    rw [e]
    generalize is.flatMap itemBytes ++ [93] ++ r = q at *
    unfold bracketItems
    rw [if_neg (fun hc => h93 hc.1)]
    obtain ⟨a, o⟩ := i
    cases o with
    | none =>
      simp only [itemBytes] at *
      rw [bracketChar_bytes a hi.1]
      simp only
      rw [if_neg (fun hc => hhead hc.1), hrest]
      simp [itemRange]
    | some b =>
      have hb := hi.2 b rfl
      have e2 : itemBytes (a, some b) ++ q = a.bytes ++ (45 :: (b.bytes ++ q)) := by simp [itemBytes]
      have hbh := patChar_head b hb q
      rw [e2, bracketChar_bytes a hi.1]
      simp only [List.head?_cons, List.tail_cons]
      rw [if_pos ⟨trivial, hbh.1, hbh.2.2.2.2⟩, bracketChar_bytes b hb]
      simp only
      rw [hrest]
      simp [itemRange]

theorem itemBytes_length (i : PatChar × Option PatChar) : 1 ≤ (itemBytes i).length := by
  obtain ⟨⟨c, e⟩, o⟩ := i
  cases o <;> cases e <;> simp [itemBytes, PatChar.bytes]

theorem items_length (is : List (PatChar × Option PatChar)) : is.length ≤ (is.flatMap itemBytes).length := by
  induction is with
  | nil => simp
  | cons i is ih =>
    have := itemBytes_length i
    simp only [List.flatMap_cons, List.length_cons, List.length_append]
    omega

theorem bracket_bytes (neg : Bool) (is : List (PatChar × Option PatChar)) (hne : is ≠ []) (h : ∀ i ∈ is, ItemOk i) (r : Bytes) :
    bracket ((if neg then [33] else []) ++ is.flatMap itemBytes ++ [93] ++ r) = some (.set neg (is.map itemRange), r) := by
  have hl := items_length is
  cases neg with
  | true =>
    have hb := bracketItems_bytes is h r true (fun _ => hne) ((33 :: (is.flatMap itemBytes ++ [93] ++ r)).length + 1)
      (by simp only [List.length_cons, List.length_append]; omega)
    simp only [if_true, List.cons_append, List.nil_append]
    unfold bracket
    simp only [List.head?_cons, true_or, decide_true, if_true, List.tail_cons]
    rw [hb]
  | false =>
    have hb := bracketItems_bytes is h r true (fun _ => hne) ((is.flatMap itemBytes ++ [93] ++ r).length + 1)
      (by simp only [List.length_append]; omega)
    have hd : decide ((is.flatMap itemBytes ++ [93] ++ r).head? = some 33 ∨ (is.flatMap itemBytes ++ [93] ++ r).head? = some 94) = false := by
      cases is with
      | nil => simp at hne
      | cons i is =>
        have := itemBytes_head i (h i (by simp)) (is.flatMap itemBytes ++ [93] ++ r)
        have e : (i :: is).flatMap itemBytes ++ [93] ++ r = itemBytes i ++ (is.flatMap itemBytes ++ [93] ++ r) := by
          simp [List.append_assoc]
        rw [e]
        exact decide_eq_false fun hc => hc.elim this.2.2.1 this.2.2.2
    simp only [Bool.false_eq_true, if_false, List.nil_append]
    unfold bracket
    simp only [hd, Bool.false_eq_true, if_false]
    rw [hb]

theorem globToks_cons (t : PatPart) (h : t.Ok) (r : Bytes) (fuel : Nat) :
    globToks (fuel + 1) (t.bytes ++ r) = (globToks fuel r).map (patTok t :: ·) := by
  cases t with
  | any => simp [PatPart.bytes, globToks, patTok]
  | star => simp [PatPart.bytes, globToks, patTok]
  | char x =>
    obtain ⟨c, e⟩ := x
    obtain ⟨_, h2⟩ := h
    cases e with
    | true => simp [PatPart.bytes, PatChar.bytes, globToks, patTok]
    | false =>
      simp only [Bool.false_eq_true, false_or, List.mem_cons, List.not_mem_nil, or_false, not_or] at h2
      simp [PatPart.bytes, PatChar.bytes, globToks, patTok, h2]
  | set neg is =>
    obtain ⟨hne, hi⟩ := h
    have hb := bracket_bytes neg is hne hi r
    have e : (PatPart.set neg is).bytes ++ r = 91 :: ((if neg then [33] else []) ++ is.flatMap itemBytes ++ [93] ++ r) := by
      simp [PatPart.bytes, List.append_assoc]
    rw [e]
    simp only [globToks]
    rw [if_neg (by decide), if_neg (by decide), if_neg (by decide), if_pos trivial, hb]
    rfl

theorem partBytes_length (t : PatPart) : 1 ≤ t.bytes.length := by
  cases t with
  | char x => obtain ⟨c, e⟩ := x; cases e <;> simp [PatPart.bytes, PatChar.bytes]
  | any => simp [PatPart.bytes]
  | star => simp [PatPart.bytes]
  | set neg is => simp [PatPart.bytes]

theorem globToks_text (g : List PatPart) (h : ∀ t ∈ g, t.Ok) (fuel : Nat) (hf : (patText g).length < fuel) :
    globToks fuel (patText g) = some (g.map patTok) := by
  induction g generalizing fuel with
  | nil =>
    obtain ⟨n, rfl⟩ : ∃ n, fuel = n + 1 := ⟨fuel - 1, by omega⟩
    simp [patText, globToks]
  | cons t g ih =>
    obtain ⟨n, rfl⟩ : ∃ n, fuel = n + 1 := ⟨fuel - 1, by omega⟩
    have hl := partBytes_length t
    have e : patText (t :: g) = t.bytes ++ patText g := by simp [patText]
    rw [e] at hf ⊢
    rw [globToks_cons t (h t (by simp)), ih (fun u hu => h u (by simp [hu])) n (by simp only [List.length_append] at hf; omega)]
    rfl

theorem inRanges_iff (x : UInt8) (is : List (PatChar × Option PatChar)) :
    inRanges x (is.map itemRange) = true ↔ ∃ i ∈ is, InItem x i := by
  simp only [inRanges, List.any_map, List.any_eq_true, Function.comp_apply, Bool.and_eq_true, decide_eq_true_eq]
  constructor
  · rintro ⟨⟨a, o⟩, hi, h1, h2⟩
    refine ⟨(a, o), hi, ?_⟩
    cases o with
    | none => exact UInt8.le_antisymm h2 h1
    | some b => exact ⟨h1, h2⟩
  · rintro ⟨⟨a, o⟩, hi, h⟩
    refine ⟨(a, o), hi, ?_⟩
    cases o with
    | none => simp only [InItem] at h; subst h; exact ⟨UInt8.le_refl _, UInt8.le_refl _⟩
    | some b => exact h

theorem matchesPat_one {t : PatPart} {g : List PatPart} {s : Bytes} (ht : t ≠ .star) :
    MatchesPat (t :: g) s ↔ ∃ x r, s = x :: r ∧ Stands t [x] ∧ MatchesPat g r := by
  constructor
  · intro h
    cases h with
    | cons _ _ a b h1 h2 =>
      cases h1 with
      | char x => exact ⟨_, _, rfl, .char x, h2⟩
      | any c => exact ⟨_, _, rfl, .any c, h2⟩
      | star s => exact absurd rfl ht
      | among is c hc => exact ⟨_, _, rfl, .among is c hc, h2⟩
      | outside is c hc => exact ⟨_, _, rfl, .outside is c hc, h2⟩
  · rintro ⟨x, r, rfl, h1, h2⟩
    exact .cons t g [x] r h1 h2

theorem matchesPat_star {g : List PatPart} {s : Bytes} : MatchesPat (.star :: g) s ↔ ∃ a b, s = a ++ b ∧ MatchesPat g b := by
  constructor
  · intro h
    cases h with
    | cons _ _ a b h1 h2 => exact ⟨a, b, rfl, h2⟩
  · rintro ⟨a, b, rfl, h⟩
    exact .cons _ g a b (.star a) h

theorem globMatch_one (t : PatPart) (g : List PatPart) (x : UInt8) (s : Bytes) (ht : t ≠ .star) :
    globMatch (patTok t :: g.map patTok) (x :: s) = true ↔ Stands t [x] ∧ globMatch (g.map patTok) s = true := by
  cases t with
  | star => exact absurd rfl ht
  | any => simp only [patTok, globMatch]; exact ⟨fun h => ⟨.any x, h⟩, fun h => h.2⟩
  | char c =>
    simp only [patTok, globMatch, Bool.and_eq_true, beq_iff_eq]
    refine and_congr_left fun _ => ⟨?_, ?_⟩
    · rintro rfl; exact .char c
    · intro h; cases h; rfl
  | set neg is =>
    simp only [patTok, globMatch, Bool.and_eq_true, bne_iff_ne, ne_eq]
    refine and_congr_left fun _ => ?_
    have hi := inRanges_iff x is
    cases neg with
    | false =>
      constructor
      · intro h; exact .among is x (hi.1 (by simpa using h))
      · intro h; cases h with | among _ _ hc => simp [hi.2 hc]
    | true =>
      constructor
      · intro h; exact .outside is x fun hc => h (hi.2 hc)
      · intro h; cases h with | outside _ _ hc => exact fun hn => hc (hi.1 hn)

theorem globMatch_iff (g : List PatPart) (s : Bytes) : globMatch (g.map patTok) s = true ↔ MatchesPat g s := by
  induction g generalizing s with
  | nil =>
    simp only [List.map_nil, globMatch, List.isEmpty_iff]
    constructor
    · rintro rfl; exact .nil
    · intro h; cases h; rfl
  | cons t g ih =>
    by_cases ht : t = .star
    · subst ht
      simp only [List.map_cons, patTok]
      rw [matchesPat_star]
      induction s with
      | nil =>
        simp only [globMatch, ih]
        constructor
        · intro h; exact ⟨[], [], rfl, h⟩
        · rintro ⟨a, b, e, h⟩
          have : b = [] := (List.append_eq_nil_iff.1 e.symm).2
          rwa [this] at h
      | cons x s ihs =>
        simp only [globMatch, Bool.or_eq_true, ih, ihs]
        constructor
        · rintro (h | ⟨a, b, rfl, h⟩)
          · exact ⟨[], _, rfl, h⟩
          · exact ⟨x :: a, b, rfl, h⟩
        · rintro ⟨a, b, e, h⟩
          cases a with
          | nil => left; rw [List.nil_append] at e; rwa [e]
          | cons y a =>
            right
            simp only [List.cons_append, List.cons.injEq] at e
            exact ⟨a, b, e.2, h⟩
    · rw [matchesPat_one ht, List.map_cons]
      cases s with
      | nil =>
        constructor
        · intro h
          cases t <;> simp_all [patTok, globMatch]
        · rintro ⟨x, r, e, _⟩; simp at e
      | cons x s =>
        rw [globMatch_one t g x s ht, ih]
        constructor
        · intro h; exact ⟨x, s, rfl, h⟩
        · rintro ⟨y, r, e, h⟩
          simp only [List.cons.injEq] at e
          rw [e.1, e.2]; exact h

theorem cstr_self (s : Bytes) (h : 0 ∉ s) : cstr s = s := by
  induction s with
  | nil => rfl
  | cons x s ih =>
    simp only [List.mem_cons, not_or] at h
    have := ih h.2
    unfold cstr at this ⊢
    rw [List.takeWhile_cons, if_pos (by simpa using Ne.symm h.1), this]

theorem patChar_zero (l : List UInt8) (x : PatChar) (h : x.Ok l) : 0 ∉ x.bytes := by
  obtain ⟨c, e⟩ := x
  have := h.1
  cases e <;> simp [PatChar.bytes, Ne.symm this]

theorem patText_zero (g : List PatPart) (h : ∀ t ∈ g, t.Ok) : 0 ∉ patText g := by
  intro hm
  obtain ⟨t, ht, hm⟩ := List.mem_flatMap.1 hm
  have hok := h t ht
  cases t with
  | any => simp [PatPart.bytes] at hm
  | star => simp [PatPart.bytes] at hm
  | char x => exact patChar_zero _ x hok hm
  | set neg is =>
    simp only [PatPart.bytes, List.mem_append, List.mem_flatMap] at hm
    rcases hm with ((hm | hm) | ⟨⟨a, o⟩, hi, hm⟩) | hm
    · simp at hm
    · cases neg <;> simp at hm
    · have hio := hok.2 _ hi
      cases o with
      | none => exact patChar_zero _ a hio.1 hm
      | some b =>
        simp only [itemBytes, List.mem_append] at hm
        rcases hm with (hm | hm) | hm
        · exact patChar_zero _ a hio.1 hm
        · simp at hm
        · exact patChar_zero _ b (hio.2 b rfl) hm
    · simp at hm

theorem fnmatch_text (g : List PatPart) (h : ∀ t ∈ g, t.Ok) (s : Bytes) (hs : 0 ∉ s) :
    fnmatch (patText g) s = some true ↔ MatchesPat g s := by
  unfold fnmatch
  rw [cstr_self _ (patText_zero g h), cstr_self s hs, globToks_text g h _ (Nat.lt_succ_self _)]
  simp only [Option.some.injEq]
  exact globMatch_iff g s

theorem fnmatch_total (p s : Bytes) : fnmatch p s ≠ none := by
  unfold fnmatch
  split <;> simp

theorem patternOf_total (p : Bytes) : ∀ u f, patternOf p = some f → f u ≠ none := by
  intro u f h
  unfold patternOf at h
  split at h
  · simp at h
  · simp only [Option.some.injEq] at h
    rw [← h]
    exact fnmatch_total p u

theorem patText_ne {g : List PatPart} (hg : g ≠ []) : patText g ≠ [] := by
  cases g with
  | nil => simp at hg
  | cons t g =>
    intro h
    have := partBytes_length t
    rw [patText, List.flatMap_cons] at h
    rw [(List.append_eq_nil_iff.1 h).1] at this
    simp at this

theorem patternOf_passes (g : List PatPart) (hg : g ≠ []) (h : ∀ t ∈ g, t.Ok) (u : Bytes) (hu : 0 ∉ u) :
    Passes (patternOf (patText g)) none u = true ↔ MatchesPat g u := by
  have hne : (patText g).isEmpty = false := by
    have := patText_ne hg
    cases hp : patText g with
    | nil => exact absurd hp this
    | cons _ _ => rfl
  rw [← fnmatch_text g h u hu]
  simp [Passes, patternOf, hne]

/-! ## Names -/

theorem matchesPat_noSlash {g : List PatPart} (hg : ∀ t ∈ g, NoSlash t) {s : Bytes} (h : MatchesPat g s) : 47 ∉ s := by
  induction h with
  | nil => simp
  | cons t g a b h1 h2 ih =>
    obtain ⟨c, rfl, hc⟩ := hg t (by simp) a h1
    have := ih fun u hu => hg u (by simp [hu])
    simp only [List.cons_append, List.nil_append, List.mem_cons, not_or]
    exact ⟨fun h => hc h.symm, this⟩

theorem suffix_name {a b dir name : Bytes} (hb : 47 ∉ b) (e : dir ++ [47] ++ name = a ++ b) : ∃ a', name = a' ++ b := by
  rw [List.append_assoc] at e
  rcases List.append_eq_append_iff.1 e with ⟨c, h1, h2⟩ | ⟨c, h1, h2⟩
  · cases c with
    | nil =>
      simp only [List.nil_append] at h2
      rw [← h2] at hb
      simp at hb
    | cons y c =>
      simp only [List.cons_append, List.nil_append, List.cons.injEq] at h2
      exact ⟨c, h2.2⟩
  · rw [h2] at hb
    simp at hb

theorem exists_name (path : Bytes) : ∃ name, NameOf path name := by
  induction path with
  | nil => exact ⟨[], by simp, .inl rfl⟩
  | cons c path ih =>
    obtain ⟨name, h1, h2 | ⟨dir, h2⟩⟩ := ih
    · by_cases hc : c = 47
      · exact ⟨name, h1, .inr ⟨[], by simp [hc, h2]⟩⟩
      · refine ⟨c :: path, ?_, .inl rfl⟩
        rw [h2]
        simp only [List.mem_cons, not_or]
        exact ⟨fun h => hc h.symm, h1⟩
    · exact ⟨name, h1, .inr ⟨c :: dir, by simp [h2]⟩⟩

/-- For `*` and then single characters other than the slash, the path matches if and only if the name does. -/
theorem matches_name (g : List PatPart) (hg : ∀ t ∈ g, NoSlash t) (path name : Bytes) (hn : NameOf path name) :
    MatchesPat (.star :: g) path ↔ MatchesPat (.star :: g) name := by
  obtain ⟨_, rfl | ⟨dir, rfl⟩⟩ := hn
  · exact Iff.rfl
  rw [matchesPat_star, matchesPat_star]
  constructor
  · rintro ⟨a, b, e, h⟩
    obtain ⟨a', ha⟩ := suffix_name (matchesPat_noSlash hg h) e
    exact ⟨a', b, ha, h⟩
  · rintro ⟨a, b, rfl, h⟩
    exact ⟨dir ++ [47] ++ a, b, by simp [List.append_assoc], h⟩

theorem matches_name_iff (g : List PatPart) (hg : ∀ t ∈ g, NoSlash t) (path : Bytes) :
    MatchesPat (.star :: g) path ↔ ∃ name, NameOf path name ∧ MatchesPat (.star :: g) name := by
  constructor
  · intro h
    obtain ⟨name, hn⟩ := exists_name path
    exact ⟨name, hn, (matches_name g hg path name hn).1 h⟩
  · rintro ⟨name, hn, h⟩
    exact (matches_name g hg path name hn).2 h

theorem patternOf_passes_both (g : List PatPart) (hg : g ≠ []) (h : ∀ t ∈ g, t.Ok) (predicate : Option (Bytes → Bool)) (u : Bytes)
    (hu : 0 ∉ u) :
    Passes (patternOf (patText g)) predicate u = true ↔ MatchesPat g u ∧ ∀ p, predicate = some p → p u = true := by
  have := patternOf_passes g hg h u hu
  cases predicate with
  | none => simpa using this
  | some p =>
    simp only [Passes, Bool.and_eq_true] at this ⊢
    rw [← this]
    simp

theorem bracketItems_none (fuel : Nat) (first : Bool) (p : Bytes) (h : 93 ∉ p) : bracketItems fuel first p = none := by
  induction fuel generalizing first p with
  | zero => rfl
  | succ fuel ih =>
    have hh : ∀ q : Bytes, 93 ∉ q → q.head? ≠ some 93 := by
      intro q hq e
      cases q with
      | nil => simp at e
      | cons c q => simp only [List.head?_cons, Option.some.injEq] at e; simp [e] at hq
    have hc : ∀ (q : Bytes) a r, 93 ∉ q → bracketChar q = some (a, r) → 93 ∉ r := by
      intro q a r hq e
      cases q with
      | nil => simp [bracketChar] at e
      | cons c q =>
        simp only [bracketChar] at e
        simp only [List.mem_cons, not_or] at hq
        split at e
        · cases q with
          | nil => simp at e
          | cons d q =>
            simp only [Option.some.injEq, Prod.mk.injEq] at e
            simp only [List.mem_cons, not_or] at hq
            rw [← e.2]; exact hq.2.2
        · simp only [Option.some.injEq, Prod.mk.injEq] at e
          rw [← e.2]; exact hq.2
    have ht : ∀ q : Bytes, 93 ∉ q → 93 ∉ q.tail := fun q hq hm => hq (List.mem_of_mem_tail hm)
    rw [bracketItems, if_neg (fun e => hh p h e.1)]
    cases e1 : bracketChar p with
    | none => rfl
    | some x =>
      obtain ⟨a, r⟩ := x
      have hr := hc p a r h e1
      simp only
      split
      · cases e2 : bracketChar r.tail with
        | none => rfl
        | some y =>
          obtain ⟨b, r'⟩ := y
          simp only
          rw [ih false r' (hc _ b r' (ht r hr) e2)]
      · rw [ih false r hr]

theorem globToks_prefix (g : List PatPart) (h : ∀ t ∈ g, t.Ok) (r : Bytes) (ts : Option (List GlobTok))
    (hr : ∀ fuel, r.length < fuel → globToks fuel r = ts) (fuel : Nat) (hf : (patText g ++ r).length < fuel) :
    globToks fuel (patText g ++ r) = ts.map (g.map patTok ++ ·) := by
  induction g generalizing fuel with
  | nil =>
    have : patText [] ++ r = r := rfl
    rw [this] at hf ⊢
    rw [hr fuel hf]
    cases ts <;> rfl
  | cons t g ih =>
    obtain ⟨n, rfl⟩ : ∃ n, fuel = n + 1 := ⟨fuel - 1, by omega⟩
    have hl := partBytes_length t
    have e : patText (t :: g) ++ r = t.bytes ++ (patText g ++ r) := by simp [patText]
    rw [e] at hf ⊢
    rw [globToks_cons t (h t (by simp)), ih (fun u hu => h u (by simp [hu])) n (by rw [List.length_append] at hf; omega)]
    cases ts <;> rfl

theorem globToks_open (g : List PatPart) (h : ∀ t ∈ g, t.Ok) (hb : 93 ∉ patText g) (fuel : Nat) (hf : ([91] ++ patText g).length < fuel) :
    globToks fuel ([91] ++ patText g) = some (.lit 91 :: g.map patTok) := by
  obtain ⟨n, rfl⟩ : ∃ n, fuel = n + 1 := ⟨fuel - 1, by omega⟩
  have hn : (patText g).length < n := by simp only [List.length_append, List.length_singleton] at hf; omega
  have hbr : bracket (patText g) = none := by
    unfold bracket
    simp only
    rw [bracketItems_none]
    split
    · exact fun hm => hb (List.mem_of_mem_tail hm)
    · exact hb
  show globToks (n + 1) (91 :: patText g) = _
  simp only [globToks]
  rw [if_neg (by decide), if_neg (by decide), if_neg (by decide), if_pos trivial, hbr]
  simp only
  rw [globToks_text g h n hn]
  rfl

theorem fnmatch_open (g g' : List PatPart) (h : ∀ t ∈ g, t.Ok) (h' : ∀ t ∈ g', t.Ok) (hb : 93 ∉ patText g') (s : Bytes) (hs : 0 ∉ s) :
    fnmatch (patText g ++ ([91] ++ patText g')) s = some true ↔ MatchesPat (g ++ .char ⟨91, true⟩ :: g') s := by
  have hz : 0 ∉ patText g ++ ([91] ++ patText g') := by
    have h1 := patText_zero g h
    have h2 := patText_zero g' h'
    simp only [List.mem_append, List.mem_singleton, not_or]
    exact ⟨h1, by decide, h2⟩
  unfold fnmatch
  rw [cstr_self _ hz, cstr_self s hs, globToks_prefix g h _ _ (fun fuel hf => globToks_open g' h' hb fuel hf) _ (Nat.lt_succ_self _)]
  simp only [Option.map_some, Option.some.injEq]
  rw [← globMatch_iff]
  simp [patTok]

theorem fnmatch_backslash (g : List PatPart) (h : ∀ t ∈ g, t.Ok) (s : Bytes) : fnmatch (patText g ++ [92]) s = some false := by
  have hz : 0 ∉ patText g ++ [92] := by
    have h1 := patText_zero g h
    simp only [List.mem_append, List.mem_singleton, not_or]
    exact ⟨h1, by decide⟩
  have hl : ∀ fuel, ([92] : Bytes).length < fuel → globToks fuel [92] = none := by
    intro fuel hf
    obtain ⟨n, rfl⟩ : ∃ n, fuel = n + 1 := ⟨fuel - 1, by omega⟩
    simp [globToks]
  unfold fnmatch
  rw [cstr_self _ hz, globToks_prefix g h _ _ hl _ (Nat.lt_succ_self _)]
  rfl

end Mlio
