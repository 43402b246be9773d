import Verif.Proofs.Stores

/-!
# Ordering, listing, compression inference, S3 URIs and S3 streams: C51, C52, C60
-/

namespace Mlio
open Spec

/-! ## C51 -/

/-- C51: the comparison used for sorting is a strict weak ordering, whether `char` is signed or not. -/
theorem C51_strict_weak (signed : Bool) : StrictWeak (natLess signed) := natLess_strictWeak signed

/-- The comparison is not trivial. -/
example : natLess true [97, 50] [97, 49, 48] = true ∧ natLess true [97, 49, 48] [97, 50] = false ∧
    natLess true [98] [97] = false ∧ natLess false [97] [200] = true ∧ natLess true [97] [200] = false := by decide

/-- C51: after the same prefix, names are ordered by the number that follows, if it has no leading zeros, whatever
comes behind it. -/
theorem C51_numbers_partial (signed : Bool) (p x y r s : Bytes) (hx : PlainNumber x) (hy : PlainNumber y)
    (hp : NoDigitAtEnd p) (hp0 : (0 : UInt8) ∉ p) (hr : NoDigitAtStart r) (hs : NoDigitAtStart s)
    (h : decimal x < decimal y) :
    natLess signed (p ++ x ++ r) (p ++ y ++ s) = true ∧ natLess signed (p ++ y ++ s) (p ++ x ++ r) = false := by
  have h1 := number_order signed p x y r s hx hy hp hp0 hr hs h
  have h2 : natLess signed (p ++ x ++ r) (p ++ y ++ s) = true := by simpa [natLess] using h1
  refine ⟨h2, ?_⟩
  have hw := natLess_strictWeak signed
  rcases hb : natLess signed (p ++ y ++ s) (p ++ x ++ r) with _ | _
  · rfl
  · have := hw.trans _ _ _ h2 hb
    rw [hw.irrefl] at this
    cases this

/-- `part-9.csv` and `part-10` -/
example : PlainNumber [57] ∧ PlainNumber [49, 48] ∧ NoDigitAtEnd [112, 45] ∧ (0 : UInt8) ∉ ([112, 45] : Bytes) ∧
    NoDigitAtStart [46, 99] ∧ NoDigitAtStart [] ∧ decimal [57] < decimal [49, 48] :=
  ⟨by unfold PlainNumber; decide, by unfold PlainNumber; decide, by intro c hc; simp at hc; subst hc; decide, by decide,
    by intro c hc; simp at hc; subst hc; decide, by intro c hc; simp at hc, by decide⟩

/-- C51: names without digits and white space are ordered as `strcmp` orders them, by the first character in which they differ. -/
theorem C51_words (signed : Bool) (a b : Bytes) (ha : Wordy a) (hb : Wordy b) : natLess signed a b = true ↔ BeforeByChar signed a b := by
  have h : natLess signed a b = true ↔ lexCmp (natKey signed (cstr a)) (natKey signed (cstr b)) < 0 := by
    simp [natLess, strnatcmp_key]
  rw [h, cstr_wordy ha, cstr_wordy hb, natKey_wordy signed a ha, natKey_wordy signed b hb]
  exact lexCmp_map (charValue signed) (charValue_inj signed) _ _ (by simp) (by simp) a b rfl rfl
    (fun h => (ha 0 h).2.2 rfl) (fun h => (hb 0 h).2.2 rfl)

/-- `ab`, `b`; and on a platform where characters are signed, `aé` comes before `a`. -/
example : Wordy [97, 98] ∧ Wordy [98] ∧ Wordy [97, 0xC3, 0xA9] ∧ BeforeByChar true [97, 98] [98] ∧ BeforeByChar true [97, 0xC3, 0xA9] [97] ∧
    ¬ natLess false [97, 0xC3, 0xA9] [97] = true :=
  ⟨by unfold Wordy NameBlank; decide, by unfold Wordy NameBlank; decide, by unfold Wordy NameBlank; decide,
    ⟨[], 97, 98, [98, 0], [0], rfl, rfl, by decide⟩, ⟨[97], 0xC3, 0, [0xA9, 0], [], rfl, rfl, by decide⟩, by decide⟩

/-- C51: white space that does not split a number makes no difference: wherever it is put into a name, the name with it and the name
without it are equally good for the order. -/
theorem C51_blanks (signed : Bool) (p ws r : Bytes) (hws : ∀ c ∈ ws, NameBlank c) (h : NoDigitAtEnd p ∨ NoDigitAtStart r) (other : Bytes) :
    natLess signed (p ++ ws ++ r) other = natLess signed (p ++ r) other ∧
    natLess signed other (p ++ ws ++ r) = natLess signed other (p ++ r) := by
  have key : natKey signed (cstr (p ++ ws ++ r)) = natKey signed (cstr (p ++ r)) := by
    by_cases h0 : (0 : UInt8) ∈ p
    · have hc : ∀ s, cstr (p ++ s) = cstr p := by
        intro s
        induction p with
        | nil => cases h0
        | cons c p ih =>
          unfold cstr at ih ⊢
          by_cases hc : c = 0
          · subst hc; simp
          · simp only [List.cons_append, List.takeWhile_cons, hc, ne_eq, not_false_eq_true, decide_true, if_true]
            congr 1
            refine ih ?_ ?_
            · refine h.imp_left fun h x hx => h x ?_
              cases p with
              | nil => simp at hx
              | cons y p => exact hx
            · rcases List.mem_cons.1 h0 with h0 | h0
              · exact absurd h0.symm hc
              · exact h0
      rw [List.append_assoc, hc, hc]
    · have hw0 : (0 : UInt8) ∉ ws := by
        intro h
        have := hws 0 h
        revert this
        unfold NameBlank
        decide
      rw [List.append_assoc, cstr_append p _ h0, cstr_append ws r hw0, cstr_append p r h0]
      refine natKey_blanks signed ws (cstr r) (fun c hc => (white_iff c).2 (hws c hc)) _ p (Nat.lt_succ_self _) (h.imp_right fun h => ?_)
      intro c hc
      have := cstr_noDigit r h c hc
      intro hd
      rw [(digit_iff c).2 hd] at this
      cases this
  constructor
  · simp only [natLess, strnatcmp_key, key]
  · simp only [natLess, strnatcmp_key, key]

/-- `a 1` and `a1`; but `1 2` and `12` differ. -/
example : (∀ c ∈ ([32, 9] : Bytes), NameBlank c) ∧ NoDigitAtEnd [97] ∧ natLess true [49, 32, 50] [49, 50] = true :=
  ⟨by unfold NameBlank; decide, by intro c hc; simp at hc; subst hc; decide, by decide⟩

/-- C51 fails for numbers with leading zeros: they are compared as fractions, so that `a09` comes before `a1`. -/
theorem C51_leading_zeros_violated : decimal [49] < decimal [48, 57] ∧
    natLess true ([97] ++ [48, 57]) ([97] ++ [49]) = true ∧ natLess true ([97] ++ [49]) ([97] ++ [48, 57]) = false := by
  decide

/-- C51: the objects listed are those on all the pages of all the URIs that pass the filters, once per URI, sorted. -/
theorem C51_listing {T : Type} (signed : Bool) (server : Bytes → Bytes → Option T → List Bytes × Option T) (fuel : Nat)
    (pattern : Option (Bytes → Option Bool)) (predicate : Option (Bytes → Bool)) (sort : List Bytes → List Bytes)
    (hsort : Sorts (natLess signed) sort) (pages : Bytes → Bytes → List (List Bytes))
    (hpat : ∀ u f, pattern = some f → f u ≠ none)
    (parts : List (Bytes × Bytes × Bytes))
    (h : ∀ q ∈ parts, splitPrefix q.1 = .ok (q.2.1, q.2.2) ∧ Pages (server q.2.1 q.2.2) none (pages q.2.1 q.2.2) ∧
      (pages q.2.1 q.2.2).length ≤ fuel) :
    ∃ us, listS3 server fuel pattern predicate sort (parts.map (·.1)) = .ok us ∧ Sorted (natLess signed) us ∧
      us.Perm (parts.flatMap fun q =>
        ((pages q.2.1 q.2.2).flatten.map (s3Scheme ++ q.2.1 ++ [47] ++ ·)).filter (Passes pattern predicate)) := by
  have hgo := listS3_go_ok server fuel pattern predicate pages hpat parts h
  obtain ⟨h1, h2⟩ := hsort (natLess_strictWeak signed) (parts.flatMap fun q =>
    ((pages q.2.1 q.2.2).flatten.map (s3Scheme ++ q.2.1 ++ [47] ++ ·)).filter (Passes pattern predicate))
  exact ⟨_, by simp only [listS3, hgo], h2, h1⟩

/-- A bucket `b` whose objects `x2` and `x10` are delivered in two pages. -/
def exServer : Bytes → Bytes → Option Nat → List Bytes × Option Nat
  | _, _, none => ([[120, 49, 48]], some 1)
  | _, _, some _ => ([[120, 50]], none)

/-- There is such a `sort`, and the pages of the example are those of the service. -/
example : Sorts (natLess true) (fun l => l.mergeSort (fun a b => !natLess true b a)) ∧
    splitPrefix (s3Scheme ++ [98]) = .ok ([98], []) ∧ Pages (exServer [98] []) none [[[120, 49, 48]], [[120, 50]]] ∧
    listS3 exServer 2 none none (fun l => l.mergeSort (fun a b => !natLess true b a)) [s3Scheme ++ [98]] =
      .ok [s3Scheme ++ [98, 47, 120, 50], s3Scheme ++ [98, 47, 120, 49, 48]] := by
  refine ⟨fun hw l => ⟨List.mergeSort_perm _ _, ?_⟩, by decide, .more _ _ 1 _ rfl (.last _ _ rfl), by
    simp [listS3, listS3.go, splitPrefix, s3Scheme, exServer, listObjects, keepWanted, wanted, List.mergeSort,
      List.findIdx?_cons, List.MergeSort.Internal.splitInTwo, List.merge, natLess, strnatcmp, cstr, natLoop, natSpace,
      natDigit, compareRuns, compareRight, charVal]⟩
  have := List.pairwise_mergeSort (le := fun a b => !natLess true b a) (fun a b c h1 h2 => by
    simp only [Bool.not_eq_true'] at *
    rcases h : natLess true c a with _ | _
    · rfl
    · rcases h3 : natLess true a b with _ | _
      · rcases h4 : natLess true b c with _ | _
        · have := hw.incomp a b c h3 h1 h4 h2
          rw [this.2] at h; cases h
        · have := hw.trans _ _ _ h4 h
          rw [h1] at this; cases this
      · have := hw.trans _ _ _ h h3
        rw [h2] at this; cases this) (fun a b => by
    rcases h : natLess true b a with _ | _
    · simp
    · rcases h' : natLess true a b with _ | _
      · simp
      · have := hw.trans _ _ _ h h'
        rw [hw.irrefl] at this; cases this) l
  refine List.Pairwise.imp ?_ this
  intro a b hab
  simpa using hab

/-- C51: the files listed are the regular files that pass the filters, in the order of the traversal; if part of the
hierarchy cannot be read, listing fails. -/
theorem C51_files (pattern : Option (Bytes → Option Bool)) (predicate : Option (Bytes → Bool))
    (hpat : ∀ u f, pattern = some f → f u ≠ none) (es : List FtsEntry) :
    (FtsEntry.error ∉ es → listFiles pattern predicate es =
      .ok ((es.filterMap fun | .file p => some p | _ => none).filter (Passes pattern predicate))) ∧
    (FtsEntry.error ∈ es → listFiles pattern predicate es = .err .systemError) :=
  ⟨listFiles_ok pattern predicate hpat es, listFiles_error pattern predicate hpat es⟩

example : listFiles (some fun u => some (u.length > 1)) (some fun u => u.length < 3)
    [.other [47], .file [97], .file [97, 98], .file [97, 98, 99]] = .ok [[97, 98]] ∧
    listFiles none none [.file [97], .error] = .err .systemError := by decide

/-! ## C52 -/

/-- C52: compression is inferred from the suffixes `.gz`, `.bz2` and `.zip` after a stem that is not empty. -/
theorem C52_compression (path : Bytes) :
    (inferCompression path = .gzip ↔ ∃ stem, stem ≠ [] ∧ path = stem ++ [46, 103, 122]) ∧
    (inferCompression path = .bzip2 ↔ ∃ stem, stem ≠ [] ∧ path = stem ++ [46, 98, 122, 50]) ∧
    (inferCompression path = .zip ↔ ∃ stem, stem ≠ [] ∧ path = stem ++ [46, 122, 105, 112]) ∧
    inferCompression path ≠ .infer := by
  rcases Nat.lt_or_ge path.length 4 with hl | hl
  · have hn : inferCompression path = .none := by
      unfold inferCompression
      rw [if_neg (by simp; omega), if_neg (by simp; omega)]
    have hno : ∀ stem suf : Bytes, stem ≠ [] → 3 ≤ suf.length → path ≠ stem ++ suf := by
      intro stem suf h1 h2 h3
      have := congrArg List.length h3
      have h4 : 0 < stem.length := List.length_pos_iff.2 h1
      simp only [List.length_append] at this
      omega
    rw [hn]
    refine ⟨⟨fun h => (by cases h), ?_⟩, ⟨fun h => (by cases h), ?_⟩, ⟨fun h => (by cases h), ?_⟩, by decide⟩ <;>
    · rintro ⟨stem, h1, h2⟩
      exact absurd h2 (hno stem _ h1 (by simp))
  · obtain ⟨s, d, a, b, c, rfl⟩ : ∃ s d a b c, path = s ++ [d, a, b, c] := by
      refine ⟨path.take (path.length - 4), ?_⟩
      have hd : (path.drop (path.length - 4)).length = 4 := by simp; omega
      rcases hq : path.drop (path.length - 4) with _ | ⟨d, _ | ⟨a, _ | ⟨b, _ | ⟨c, _ | ⟨e, t⟩⟩⟩⟩⟩
      · rw [hq] at hd; simp at hd
      · rw [hq] at hd; simp at hd
      · rw [hq] at hd; simp at hd
      · rw [hq] at hd; simp at hd
      · exact ⟨d, a, b, c, by rw [← hq, List.take_append_drop]⟩
      · rw [hq] at hd; simp at hd
    rw [inferCompression_four]
    have g3 : ∀ x y z : UInt8, (∃ stem, stem ≠ [] ∧ s ++ [d, a, b, c] = stem ++ [x, y, z]) ↔ a = x ∧ b = y ∧ c = z := by
      intro x y z
      constructor
      · rintro ⟨stem, _, h⟩
        have h' : (s ++ [d]) ++ [a, b, c] = stem ++ [x, y, z] := by rw [← h]; simp
        have := (List.append_inj' h' rfl).2
        simpa using this
      · rintro ⟨rfl, rfl, rfl⟩
        exact ⟨s ++ [d], by simp, by simp⟩
    have g4 : ∀ w x y z : UInt8, (∃ stem, stem ≠ [] ∧ s ++ [d, a, b, c] = stem ++ [w, x, y, z]) ↔
        s ≠ [] ∧ d = w ∧ a = x ∧ b = y ∧ c = z := by
      intro w x y z
      constructor
      · rintro ⟨stem, h0, h⟩
        have h1 := List.append_inj' h rfl
        refine ⟨by rw [h1.1]; exact h0, by simpa using h1.2⟩
      · rintro ⟨h0, rfl, rfl, rfl, rfl⟩
        exact ⟨s, h0, rfl⟩
    rw [g3, g4, g4]
    by_cases ha : a = 46
    · subst ha
      simp only [if_true]
      by_cases hbc : b = 103 ∧ c = 122
      · simp [hbc.1, hbc.2]
      · rw [if_neg hbc]
        simp only [true_and, reduceCtorEq, false_iff, ne_eq, not_false_eq_true, and_true]
        exact ⟨hbc, by simp, by simp⟩
    · rw [if_neg ha]
      by_cases hd : s ≠ [] ∧ d = 46
      · rw [if_pos hd]
        by_cases h1 : a = 98 ∧ b = 122 ∧ c = 50
        · simp [h1.1, h1.2.1, h1.2.2, hd.1, hd.2]
        · rw [if_neg h1]
          by_cases h2 : a = 122 ∧ b = 105 ∧ c = 112
          · simp [h2.1, h2.2.1, h2.2.2, hd.1, hd.2]
          · rw [if_neg h2]
            simp only [reduceCtorEq, false_iff, ne_eq, not_false_eq_true, and_true]
            exact ⟨fun h => ha h.1, fun h => h1 h.2.2, fun h => h2 h.2.2⟩
      · rw [if_neg hd]
        simp only [reduceCtorEq, false_iff, ne_eq, not_false_eq_true, and_true]
        exact ⟨fun h => ha h.1, fun h => hd ⟨h.1, h.2.1⟩, fun h => hd ⟨h.1, h.2.1⟩⟩

/-- `a.gz`, `.gz` and `a.zip` -/
example : inferCompression [97, 46, 103, 122] = .gzip ∧ inferCompression [46, 103, 122] = .none ∧
    inferCompression [97, 46, 122, 105, 112] = .zip ∧ inferCompression [46, 46, 98, 122, 50] = .bzip2 := by decide

/-- C52: a URI names an object exactly if it is `s3://`, a bucket, a slash and a key, bucket and key not empty and no
slash in the bucket; it is then split into these two, so that joining them gives back the URI.  Anything else is
rejected. -/
theorem C52_object_uri (uri : Bytes) :
    (∀ b k, splitKeyUri uri = .ok (b, k) ↔
      uri = [115, 51, 58, 47, 47] ++ b ++ [47] ++ k ∧ b ≠ [] ∧ (47 : UInt8) ∉ b ∧ k ≠ []) ∧
    ((¬ ∃ b k, uri = [115, 51, 58, 47, 47] ++ b ++ [47] ++ k ∧ b ≠ [] ∧ (47 : UInt8) ∉ b ∧ k ≠ []) →
      splitKeyUri uri = .err .invalidArgument) := by
  have main : ∀ b k, splitKeyUri uri = .ok (b, k) ↔
      uri = [115, 51, 58, 47, 47] ++ b ++ [47] ++ k ∧ b ≠ [] ∧ (47 : UInt8) ∉ b ∧ k ≠ [] := by
    intro b k
    constructor
    · intro h
      unfold splitKeyUri at h
      rcases hs : splitPrefix uri with ⟨b', k'⟩ | e | w
      · rw [hs] at h
        simp only at h
        split at h
        · cases h
        · rename_i hk
          simp only [Res.ok.injEq, Prod.mk.injEq] at h
          obtain ⟨rfl, rfl⟩ := h
          obtain ⟨h1, h2, h3⟩ := splitPrefix_inv uri _ _ hs
          have hk' : k' ≠ [] := by simpa using hk
          rcases h3 with h3 | ⟨_, h3⟩
          · exact ⟨by rw [h3]; simp [s3Scheme], h1, h2, hk'⟩
          · exact absurd h3 hk'
      · rw [hs] at h; cases h
      · rw [hs] at h; cases h
    · rintro ⟨rfl, hb, hs, hk⟩
      have := splitPrefix_join b k hb hs
      have e : [115, 51, 58, 47, 47] ++ b ++ [47] ++ k = s3Scheme ++ b ++ 47 :: k := by simp [s3Scheme]
      simp only [splitKeyUri, e, this]
      rw [if_neg (by simpa using hk)]
  refine ⟨main, fun hno => ?_⟩
  rcases splitPrefix_total uri with ⟨⟨b, k⟩, hs⟩ | hs
  · by_cases hk : k = []
    · simp [splitKeyUri, hs, hk]
    · have : splitKeyUri uri = .ok (b, k) := by simp [splitKeyUri, hs, hk]
      exact absurd ⟨b, k, (main b k).1 this⟩ hno
  · simp [splitKeyUri, hs]

/-- `s3://b/k/x` is accepted; `s3://b`, `s3:///k` and `s4://b/k` are not. -/
example : splitKeyUri [115, 51, 58, 47, 47, 98, 47, 107, 47, 120] = .ok ([98], [107, 47, 120]) ∧
    splitKeyUri [115, 51, 58, 47, 47, 98] = .err .invalidArgument ∧
    splitKeyUri [115, 51, 58, 47, 47, 47, 107] = .err .invalidArgument ∧
    splitKeyUri [115, 52, 58, 47, 47, 98, 47, 107] = .err .invalidArgument := by decide

/-- C52: a URI that is listed is `s3://` and a bucket, with or without a slash and a prefix. -/
theorem C52_prefix_uri (uri : Bytes) :
    (∀ b p, splitPrefix uri = .ok (b, p) ↔ b ≠ [] ∧ (47 : UInt8) ∉ b ∧
      (uri = [115, 51, 58, 47, 47] ++ b ++ [47] ++ p ∨ (uri = [115, 51, 58, 47, 47] ++ b ∧ p = []))) ∧
    ((∃ q, splitPrefix uri = .ok q) ∨ splitPrefix uri = .err .invalidArgument) := by
  refine ⟨fun b p => ⟨fun h => ?_, ?_⟩, splitPrefix_total uri⟩
  · obtain ⟨h1, h2, h3⟩ := splitPrefix_inv uri _ _ h
    refine ⟨h1, h2, ?_⟩
    rcases h3 with h3 | h3
    · exact Or.inl (by rw [h3]; simp [s3Scheme])
    · exact Or.inr h3
  · rintro ⟨h1, h2, h3 | ⟨h3, rfl⟩⟩
    · rw [h3]
      have := splitPrefix_join b p h1 h2
      simpa [s3Scheme] using this
    · rw [h3]
      exact splitPrefix_bucket b h1 h2

example : splitPrefix [115, 51, 58, 47, 47, 98] = .ok ([98], []) ∧
    splitPrefix [115, 51, 58, 47, 47] = .err .invalidArgument := by decide

/-- C52: a file path is accepted exactly if it is not empty and does not end with a slash or a backslash. -/
theorem C52_file_path (path : Bytes) :
    validateFilePath path = if path = [] ∨ path.getLast? = some 47 ∨ path.getLast? = some 92 then .err .invalidArgument
      else .ok () := by
  unfold validateFilePath
  rcases h : path.getLast? with _ | c
  · have := List.getLast?_eq_none_iff.1 h
    simp [this]
  · have hne : path ≠ [] := by rintro rfl; simp at h
    by_cases h1 : c = 47
    · simp [h1]
    · by_cases h2 : c = 92
      · simp [h2]
      · simp [h1, h2, hne]

example : validateFilePath [97, 47] = .err .invalidArgument ∧ validateFilePath [47, 97] = .ok () := by decide

/-! ## C60 -/

/-- C60: any sequence of calls on an S3 stream gives what a cursor over the object gives: each read returns the bytes
at the current position, as many as asked for, fewer only at the end of the object; seeking beyond the end is an error
that leaves the position alone. -/
theorem C60_stream (x : Bytes) (ks : List StreamCall) : S3Stream.calls x (S3Stream.new x) ks = objectCalls x 0 false ks :=
  s3_calls x ks 0 false (Nat.zero_le _)

example : S3Stream.calls [1, 2, 3] (S3Stream.new [1, 2, 3]) [.readInto 2, .read 2, .seek 1, .seek 4, .read 1, .close, .read 1] =
    [.bytes (.ok [1, 2]), .bytes (.ok [3]), .unit (.ok ()), .unit (.err .systemError), .bytes (.ok [2]), .unit (.ok ()),
      .bytes (.err .streamError)] := by decide

/-- C60: listing follows every continuation token: it delivers the keys of all pages, in order. -/
theorem C60_listing {T : Type} (server : Option T → List Bytes × Option T) (base : Bytes) (ps : List (List Bytes))
    (h : Pages server none ps) (fuel : Nat) (hf : ps.length ≤ fuel) :
    listObjects server base fuel none = .ok (ps.flatten.map (base ++ ·)) :=
  listObjects_pages server base none ps h fuel hf

example : Pages (exServer [98] []) none [[[120, 49, 48]], [[120, 50]]] := .more _ _ 1 _ rfl (.last _ _ rfl)

end Mlio
