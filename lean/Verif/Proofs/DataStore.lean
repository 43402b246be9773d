import Verif.Proofs.Supplies
import Verif.Proofs.GzBlocks
import Verif.Proofs.Memory
import Verif.Props.Stores
import Verif.Spec.DataStore

/-!
# Opening data stores: proofs
-/

namespace Mlio
open Spec

/-! ## Raw streams -/

/-- What is left of a raw stream. -/
def RawRel : RawStream → Bytes → Prop
  | .memory b s, data => b.length < 2 ^ 63 ∧ ∃ p : Nat, p ≤ b.length ∧ s = ⟨⟨0, b.length⟩, p, false⟩ ∧ data = b.drop p
  | .file x f, data => ∃ p, FileRel x f ⟨p, false⟩ ∧ data = x.drop p
  | .object x s, data => ∃ p, p ≤ x.length ∧ s = ⟨false, x.length, p⟩ ∧ data = x.drop p

theorem take_split (x : Bytes) (p n m : Nat) (hm : m ≤ n) (h : 0 < m ∨ n = 0 ∨ x.length ≤ p) :
    x.drop p = (x.drop p).take m ++ x.drop (min (p + m) x.length) ∧ ((x.drop p).take m).length ≤ n ∧
      ((x.drop p).take m = [] → n = 0 ∨ x.drop p = []) := by
  refine ⟨?_, by simp; omega, fun he => ?_⟩
  · have : x.drop (min (p + m) x.length) = (x.drop p).drop m := by
      rw [List.drop_drop]
      by_cases hl : p + m ≤ x.length
      · rw [Nat.min_eq_left hl]
      · rw [Nat.min_eq_right (by omega), List.drop_eq_nil_of_le (Nat.le_refl _), List.drop_eq_nil_of_le (by omega)]
    rw [this, List.take_append_drop]
  · have := congrArg List.length he
    simp only [List.length_take, List.length_drop, List.length_nil] at this
    by_cases hn : n = 0
    · exact Or.inl hn
    · refine Or.inr (List.drop_eq_nil_of_le ?_)
      omega

theorem s3_readInto (x : Bytes) (p n : Nat) (hp : p ≤ x.length) : S3Stream.readInto x ⟨false, x.length, p⟩ n =
    (.ok ((x.drop p).take n), ⟨false, x.length, min (p + n) x.length⟩) := by
  simp only [S3Stream.readInto, Bool.false_eq_true, if_false]
  by_cases h0 : n = 0 ∨ p = x.length
  · rw [if_pos h0]
    rcases h0 with rfl | rfl
    · simp; omega
    · simp
  · rw [if_neg h0]
    have h1 : ¬ x.length ≤ p := by omega
    simp only [readObject, if_neg h1]
    have e : ((x.drop p).take (min (x.length - p) n + 1)).take (min (x.length - p) n) = (x.drop p).take n := by
      rw [List.take_take, Nat.min_eq_left (Nat.le_succ _), Nat.min_comm, ← List.take_take]
      congr 1
      exact List.take_of_length_le (by simp)
    rw [e]
    simp only [List.length_take, List.length_drop]
    congr 2
    omega

theorem rawRel_supplies {s : RawStream} {data : Bytes} (h : RawRel s data) : SuppliesTo (2 ^ 63 - 1) rawIn s data := by
  refine suppliesTo_of (m := rawIn) RawRel ?_ h
  intro s data n h hn
  cases s with
  | memory b s =>
    obtain ⟨hb, p, hp, rfl, rfl⟩ := h
    have hin : InBlock b ⟨0, b.length⟩ := ⟨by simp, by simp, by simp, hb⟩
    have hbytes : PSlice.bytes b ⟨0, b.length⟩ = b := by simp [PSlice.bytes]
    obtain ⟨h1, h2, h3⟩ := take_split b p n n (Nat.le_refl _) (by omega)
    refine ⟨(b.drop p).take n, b.drop (min (p + n) b.length),
      .memory b ⟨⟨0, b.length⟩, (min (p + n) b.length : Nat), false⟩, ?_, h1, h2, h3, hb, _, by omega, rfl, rfl⟩
    have hread := (mem_read hin p n (by rw [hbytes]; exact hp)).1
    have hadv := advance_pos hin ⟨⟨0, b.length⟩, p, false⟩ p n rfl (by simp) (by omega)
    rw [hbytes] at hread hadv
    simp only [Int.zero_add] at hread hadv
    by_cases h0 : n = 0
    · subst h0
      simp only [rawIn, MemStream.readInto, Bool.false_eq_true, if_false, if_true, List.take_zero, Nat.add_zero,
        Nat.min_eq_left hp]
    · simp only [rawIn, MemStream.readInto, Bool.false_eq_true, if_false, if_neg h0]
      rw [hadv, hread]
  | file x f =>
    obtain ⟨p, hr, rfl⟩ := h
    obtain ⟨m, h1, h2, h3, h4⟩ := fileRel_readInto n p f hr
    obtain ⟨g1, g2, g3⟩ := take_split x p n m h1 h2
    refine ⟨(x.drop p).take m, x.drop (min (p + m) x.length), .file x (f.readInto x n).2, ?_, g1, g2, g3, _, h4, rfl⟩
    simp only [rawIn, h3]
  | object x s =>
    obtain ⟨p, hp, rfl, rfl⟩ := h
    obtain ⟨g1, g2, g3⟩ := take_split x p n n (Nat.le_refl _) (by omega)
    refine ⟨(x.drop p).take n, x.drop (min (p + n) x.length), .object x ⟨false, x.length, min (p + n) x.length⟩, ?_, g1, g2, g3,
      _, by omega, rfl, rfl⟩
    simp only [rawIn, s3_readInto x p n hp]

theorem behind_raw {w : World} {st : Store} {x : Bytes} (h : BytesBehind w st x) (hx : x.length < 2 ^ 63) :
    ∃ s, st.raw w = .ok s ∧ RawRel s x := by
  cases st with
  | file path mm c =>
    obtain ⟨sched, h⟩ := h
    simp only [Store.raw, h]
    cases mm with
    | true => exact ⟨_, rfl, hx, 0, by omega, rfl, rfl⟩
    | false => exact ⟨_, rfl, 0, ⟨rfl, rfl, by simp, Or.inl rfl⟩, rfl⟩
  | memory chunk c =>
    simp only [BytesBehind] at h
    subst h
    exact ⟨_, rfl, hx, 0, by omega, rfl, rfl⟩
  | object uri version c =>
    obtain ⟨b, k, h1, h2⟩ := h
    simp only [Store.raw, ((C52_object_uri uri).1 b k).2 h1, h2]
    exact ⟨_, rfl, 0, by omega, rfl, rfl⟩

/-! ## Blocks -/

theorem delivers_nil {m : InStream} {B : Nat} (hB : 0x80000 ≤ B) {s : m.σ} (hs : SuppliesTo B m s []) : Delivers m s [] := by
  intro j
  induction j generalizing s with
  | zero => rfl
  | succ j ih =>
    obtain ⟨y, data', h1, h2, h3, h4, h5⟩ := hs.step hB
    obtain ⟨rfl, rfl⟩ := List.append_eq_nil_iff.1 h2.symm
    simp only [List.replicate_succ, InStream.reads, h1, ih h5]

/-- The blocks are determined. -/
theorem delivers_fun {m : InStream} : ∀ {s : m.σ} {a b : List Bytes}, Delivers m s a → Delivers m s b → a = b
  | _, [], [], _, _ => rfl
  | s, [], c :: cs, h1, h2 => by
    have h := h1 1
    obtain ⟨h3, s', h4, _⟩ := h2
    simp only [List.replicate_one, InStream.reads, h4, List.cons.injEq, Res.ok.injEq, and_true] at h
    exact absurd h h3
  | s, c :: cs, [], h1, h2 => by
    have h := h2 1
    obtain ⟨h3, s', h4, _⟩ := h1
    simp only [List.replicate_one, InStream.reads, h4, List.cons.injEq, Res.ok.injEq, and_true] at h
    exact absurd h h3
  | s, c :: cs, d :: ds, h1, h2 => by
    obtain ⟨_, s', h4, h5⟩ := h1
    obtain ⟨_, s'', h6, h7⟩ := h2
    rw [h4] at h6
    simp only [Prod.mk.injEq, Res.ok.injEq] at h6
    obtain ⟨rfl, rfl⟩ := h6
    rw [delivers_fun h5 h7]

/-- A short piece of memory is delivered as one block. -/
theorem memory_block {x : Bytes} (h0 : x ≠ []) (hx : x.length ≤ 0x80000) :
    Delivers rawIn (.memory x (MemStream.new ⟨0, x.length⟩)) [x] := by
  have hr : RawRel (.memory x (MemStream.new ⟨0, x.length⟩)) x := ⟨by omega, 0, by omega, rfl, rfl⟩
  have hrest : RawRel (.memory x ⟨⟨0, x.length⟩, x.length, false⟩) [] := ⟨by omega, x.length, by omega, rfl, by simp⟩
  refine ⟨h0, .memory x ⟨⟨0, x.length⟩, x.length, false⟩, ?_, delivers_nil (by decide) (rawRel_supplies hrest)⟩
  have hin : InBlock x ⟨0, x.length⟩ := ⟨by simp, by simp, by simp, by omega⟩
  have hbytes : PSlice.bytes x ⟨0, x.length⟩ = x := by simp [PSlice.bytes]
  have hread := (mem_read hin 0 0x80000 (by omega)).1
  have hadv := advance_pos hin (MemStream.new ⟨0, x.length⟩) 0 0x80000 rfl rfl (by decide)
  rw [hbytes] at hread hadv
  rw [Nat.zero_add, Nat.min_eq_right hx] at hread hadv
  simp only [Int.zero_add] at hread hadv
  simp only [rawIn, MemStream.readInto]
  rw [if_neg (by simp [MemStream.new]), if_neg (by decide), hadv]
  have : (MemStream.new ⟨0, x.length⟩).pos = 0 + ((0 : Nat) : Int) := rfl
  rw [this]
  simp only [Int.zero_add]
  rw [hread, List.drop_zero, List.take_of_length_le hx]
  rfl

/-- A stream that supplies bytes delivers them in some blocks. -/
theorem delivers_of {m : InStream} {B : Nat} (hB : 0x80000 ≤ B) : ∀ (k : Nat) (s : m.σ) (x : Bytes), x.length ≤ k →
    SuppliesTo B m s x → ∃ blocks, Delivers m s blocks ∧ blocks.flatten = x := by
  intro k
  induction k with
  | zero =>
    intro s x hx hs
    have : x = [] := List.length_eq_zero_iff.1 (by omega)
    subst this
    exact ⟨[], delivers_nil hB hs, rfl⟩
  | succ k ih =>
    intro s x hx hs
    by_cases hx0 : x = []
    · exact ih s x (by simp [hx0]) hs
    · obtain ⟨y, data', h1, h2, h3, h4, h5⟩ := hs.step hB
      have hy : y ≠ [] := by
        intro hy
        rcases h4 hy with h | h
        · omega
        · exact hx0 h
      have := List.length_pos_iff.2 hy
      have hl := congrArg List.length h2
      simp only [List.length_append] at hl
      obtain ⟨blocks, h6, h7⟩ := ih _ data' (by omega) h5
      refine ⟨y :: blocks, ⟨hy, _, ?_, h6⟩, by simp [h7, h2]⟩
      rw [← h1]

/-! ## Inflated streams -/

theorem gzIn_supplies {m : InStream} {z : Inflater} {g : GzStream m z} {rest : List Bytes} {text : Bytes}
    (h : GzOk g rest text) : SuppliesTo (2 ^ 32 - 1) (gzIn m z) g text := by
  refine suppliesTo_of (m := gzIn m z) (fun (g : GzStream m z) text => ∃ rest, GzOk g rest text) ?_ ⟨rest, h⟩
  intro g text n ⟨rest, h⟩ hn
  by_cases h0 : n = 0
  · subst h0
    exact ⟨[], text, g, by simp [gzIn, GzStream.read], rfl, by simp, fun _ => Or.inl rfl, rest, h⟩
  · obtain ⟨out, g', t, rest', h1, h2, h3, h4, h5⟩ := gzOk_read g rest text h n (by omega) (by omega)
    exact ⟨out, t, g', by simp [gzIn, h1], h4, h2, fun hx => Or.inr (h3 hx), rest', h5⟩

/-! ## Opened stores -/

theorem storeIn_plain {z : Inflater} {B : Nat} {s : RawStream} {x : Bytes} (h : SuppliesTo B rawIn s x) :
    SuppliesTo B (storeIn z) (.plain s) x := by
  refine suppliesTo_of (m := storeIn z) (fun s x => ∃ r, s = .plain r ∧ SuppliesTo B rawIn r x) ?_ ⟨s, rfl, h⟩
  rintro _ x n ⟨r, rfl, h⟩ hn
  obtain ⟨y, data', h1, h2, h3, h4, h5⟩ := h.step hn
  exact ⟨y, data', .plain (rawIn.read r n).2, by simp only [storeIn, h1], h2, h3, h4, _, rfl, h5⟩

theorem storeIn_inflated {z : Inflater} {B : Nat} {g : GzStream rawIn z} {x : Bytes} (h : SuppliesTo B (gzIn rawIn z) g x) :
    SuppliesTo B (storeIn z) (.inflated g) x := by
  refine suppliesTo_of (m := storeIn z) (fun s x => ∃ r, s = .inflated r ∧ SuppliesTo B (gzIn rawIn z) r x) ?_ ⟨g, rfl, h⟩
  rintro _ x n ⟨r, rfl, h⟩ hn
  obtain ⟨y, data', h1, h2, h3, h4, h5⟩ := h.step hn
  exact ⟨y, data', .inflated ((gzIn rawIn z).read r n).2, by simp only [storeIn, h1], h2, h3, h4, _, rfl, h5⟩

theorem gz_raw {z : Inflater} {s : RawStream} {x contents : Bytes} (hs : RawRel s x) {ms : List (Bytes × Bytes)}
    (hz : GzFile z ms x contents) (ha : ∀ blocks, Delivers rawIn s blocks → Audible z blocks) :
    SuppliesTo (2 ^ 32 - 1) (storeIn z) (.inflated (GzStream.new (m := rawIn) z s)) contents := by
  obtain ⟨blocks, h1, h2⟩ := delivers_of (by decide) x.length s x (Nat.le_refl _) (rawRel_supplies hs)
  subst h2
  exact storeIn_inflated (gzIn_supplies (new_gzOk (m := rawIn) h1 hz (ha blocks h1)))

end Mlio
