import Verif.Proofs.DataStore
import Verif.Proofs.TextSource
import Verif.Spec.StoreReaders

/-!
# Data readers over data stores: proofs
-/

namespace Mlio
open Spec

/-- The raw stream is over the bytes `x`, in memory or not. -/
def RawOver (x : Bytes) (mem : Bool) (s : RawStream) : Prop :=
  (∃ data, RawRel s data) ∧
  match s with
  | .memory b _ => b = x ∧ mem = true
  | .file b _ => b = x ∧ mem = false
  | .object b _ => b = x ∧ mem = false

theorem rawOver_read {x : Bytes} {mem : Bool} {s : RawStream} (h : RawOver x mem s) {n : Nat} (hn : n ≤ 2 ^ 63 - 1) :
    RawOver x mem (rawIn.read s n).2 := by
  obtain ⟨⟨data, h1⟩, h2⟩ := h
  cases s with
  | memory b s =>
    refine ⟨?_, h2⟩
    obtain ⟨hb, p, hp, rfl, rfl⟩ := h1
    have hin : InBlock b ⟨0, b.length⟩ := ⟨by simp, by simp, by simp, hb⟩
    have hbytes : PSlice.bytes b ⟨0, b.length⟩ = b := by simp [PSlice.bytes]
    have hadv := advance_pos hin ⟨⟨0, b.length⟩, p, false⟩ p n rfl (by simp) (by omega)
    rw [hbytes] at hadv
    simp only [Int.zero_add] at hadv
    by_cases h0 : n = 0
    · subst h0
      simp only [rawIn, MemStream.readInto, Bool.false_eq_true, if_false, if_true]
      exact ⟨_, hb, p, hp, rfl, rfl⟩
    · simp only [rawIn, MemStream.readInto, Bool.false_eq_true, if_false, if_neg h0]
      rw [hadv]
      exact ⟨_, hb, _, Nat.min_le_right _ _, rfl, rfl⟩
  | file b f =>
    refine ⟨?_, h2⟩
    obtain ⟨p, hr, rfl⟩ := h1
    obtain ⟨m, _, _, _, h4⟩ := fileRel_readInto n p f hr
    exact ⟨_, _, h4, rfl⟩
  | object b s =>
    refine ⟨?_, h2⟩
    obtain ⟨p, hp, rfl, rfl⟩ := h1
    simp only [rawIn, s3_readInto b p n hp]
    exact ⟨_, _, Nat.min_le_right _ _, rfl, rfl⟩

theorem rawOver_after {x : Bytes} {mem : Bool} (ns : List Nat) : ∀ {s : RawStream}, RawOver x mem s → (∀ n ∈ ns, n ≤ 2 ^ 63 - 1) →
    RawOver x mem (afterReads rawIn s ns) := by
  induction ns with
  | nil => intro s h _; exact h
  | cons n ns ih =>
    intro s h hn
    exact ih (rawOver_read h (hn n (by simp))) (fun k hk => hn k (by simp [hk]))

theorem storeIn_after {z : Inflater} (ns : List Nat) : ∀ s : RawStream,
    afterReads (storeIn z) (.plain s) ns = .plain (afterReads rawIn s ns) := by
  induction ns with
  | nil => intro s; rfl
  | cons n ns ih => intro s; exact ih _

theorem storeIn_after_gz {z : Inflater} (ns : List Nat) : ∀ g : GzStream rawIn z,
    ∃ g', afterReads (storeIn z) (.inflated g) ns = .inflated g' := by
  induction ns with
  | nil => intro g; exact ⟨g, rfl⟩
  | cons n ns ih => intro g; exact ih _

theorem rawOver_seek0 {x : Bytes} {mem : Bool} {s : RawStream} (h : RawOver x mem s) :
    s.seek0.1 = .ok () ∧ RawRel s.seek0.2 x ∧ RawOver x mem s.seek0.2 := by
  obtain ⟨⟨data, h1⟩, h2⟩ := h
  have key : s.seek0.1 = .ok () ∧ RawRel s.seek0.2 x := by
    cases s with
    | memory b s =>
      obtain ⟨rfl, rfl⟩ := h2
      obtain ⟨hb, p, hp, rfl, rfl⟩ := h1
      refine ⟨by simp [RawStream.seek0, MemStream.seek], hb, 0, by omega, ?_, rfl⟩
      simp [MemStream.seek, MemStream.advance, asSsize]
      omega
    | file b f =>
      obtain ⟨rfl, rfl⟩ := h2
      obtain ⟨p, ⟨r1, r2, r3, r4⟩, rfl⟩ := h1
      have hsz := file_size r4
      simp only [Bool.not_false] at r1
      simp only [RawStream.seek0, FileStream.seek, FileStream.size, r1, Bool.not_true, Bool.false_eq_true, if_false, hsz,
        Nat.zero_min]
      exact ⟨trivial, 0, ⟨by simp [r1], rfl, by simp, Or.inr rfl⟩, rfl⟩
    | object b s =>
      obtain ⟨rfl, rfl⟩ := h2
      obtain ⟨p, hp, rfl, rfl⟩ := h1
      refine ⟨by simp [RawStream.seek0, S3Stream.seek], 0, by omega, ?_, rfl⟩
      simp [S3Stream.seek]
  refine ⟨key.1, key.2, ⟨x, key.2⟩, ?_⟩
  cases s <;> exact h2

theorem rawOver_start {z : Inflater} {B : Nat} (hB : B ≤ 2 ^ 63 - 1) {x : Bytes} {mem : Bool} {s : RawStream} (h : RawOver x mem s)
    (hr : RawRel s x) : AtStart B (storeSrc z) mem x (.plain s) := by
  refine ⟨(storeIn_plain (rawRel_supplies hr)).mono hB, ?_⟩
  cases s with
  | memory b s =>
    obtain ⟨_, rfl, rfl⟩ := h
    obtain ⟨hl, p, hp, rfl, hd⟩ := hr
    simp only [storeSrc, if_true, Int.toNat_natCast]
    rw [List.take_of_length_le (by simp only [List.length_drop]; omega)]
    exact congrArg some hd.symm
  | file b f =>
    obtain ⟨_, rfl, rfl⟩ := h
    rfl
  | object b f =>
    obtain ⟨_, rfl, rfl⟩ := h
    rfl

theorem rawOver_source {z : Inflater} {B : Nat} (hB : B ≤ 2 ^ 63 - 1) {x : Bytes} {mem : Bool} {s : RawStream} (h : RawOver x mem s)
    (hr : RawRel s x) : SourceOf B (storeSrc z) mem true x (.plain s) := by
  refine ⟨rawOver_start hB h hr, fun ns hn => ?_⟩
  have ha := rawOver_after ns h (fun n hm => Nat.le_trans (hn n hm) hB)
  obtain ⟨h1, h2, h3⟩ := rawOver_seek0 ha
  have e : afterReads (storeSrc z).toInStream (.plain s) ns = .plain (afterReads rawIn s ns) := storeIn_after ns s
  rw [e]
  have e2 : (storeSrc z).seek0 (.plain (afterReads rawIn s ns)) =
      some (.ok (), .plain (afterReads rawIn s ns).seek0.2) := by
    simp only [storeSrc, h1]
  rw [e2]
  exact ⟨rfl, rawOver_start hB h3 h2⟩

theorem gz_source {z : Inflater} {B : Nat} {x : Bytes} {g : GzStream rawIn z}
    (h : SuppliesTo B (storeIn z) (.inflated g) x) : SourceOf B (storeSrc z) false false x (.inflated g) := by
  refine ⟨⟨h, rfl⟩, fun ns _ => ?_⟩
  obtain ⟨g', e⟩ := storeIn_after_gz ns g
  have e : afterReads (storeSrc z).toInStream (.inflated g) ns = .inflated g' := e
  rw [e]
  exact rfl

theorem behind_over {w : World} {st : Store} {x : Bytes} {s : RawStream} (h : BytesBehind w st x) (hc : st.compression = .none)
    (hs : st.raw w = .ok s) (hr : RawRel s x) : RawOver x (InMemory st) s := by
  refine ⟨⟨x, hr⟩, ?_⟩
  cases st with
  | file path mm c =>
    obtain ⟨sched, h⟩ := h
    simp only [Store.compression] at hc
    subst hc
    simp only [Store.raw, h] at hs
    cases mm with
    | true => cases hs; exact ⟨rfl, rfl⟩
    | false => cases hs; exact ⟨rfl, rfl⟩
  | memory chunk c =>
    simp only [Store.compression] at hc
    subst hc
    simp only [BytesBehind] at h
    subst h
    cases hs
    exact ⟨rfl, rfl⟩
  | object uri version c =>
    obtain ⟨b, k, h1, h2⟩ := h
    simp only [Store.raw, ((C52_object_uri uri).1 b k).2 h1, h2] at hs
    cases hs
    exact ⟨rfl, rfl⟩

theorem inMemory_compressed {st : Store} (h : st.compression = .gzip) : InMemory st = false := by
  cases st <;> simp only [Store.compression] at h <;> subst h <;> simp [InMemory]

/-- A store opens to a stream over its contents. -/
theorem store_source {z : Inflater} {w : World} {st : Store} {file : Bytes} (h : StoreHolds z w st file) :
    ∃ s, st.openRead z w = .ok s ∧
      SourceOf (2 ^ 32 - 1) (storeSrc z) (InMemory st) (st.compression == .none) file s := by
  obtain ⟨x, hb, hx, h⟩ := h
  obtain ⟨s, h1, h2⟩ := behind_raw hb hx
  rcases h with ⟨hc, rfl⟩ | ⟨hc, ⟨ms, hz⟩, ha⟩
  · refine ⟨.plain s, by simp only [Store.openRead, h1, hc, makeInflate], ?_⟩
    rw [hc]
    exact rawOver_source (by decide) (behind_over hb hc h1 h2) h2
  · refine ⟨.inflated (GzStream.new (m := rawIn) z s), by simp only [Store.openRead, h1, hc, makeInflate], ?_⟩
    rw [hc, inMemory_compressed hc]
    exact gz_source (gz_raw h2 hz fun blocks hd => ha s blocks h1 hd)

theorem Spec.SourceOf.mono {B C : Nat} {m : SrcClass} {zc sk : Bool} {file : Bytes} {s : m.σ} (h : SourceOf B m zc sk file s)
    (hc : C ≤ B) : SourceOf C m zc sk file s := by
  have hst : ∀ {s}, AtStart B m zc file s → AtStart C m zc file s := fun h => ⟨SuppliesTo.mono h.delivers hc, h.whole⟩
  refine ⟨hst h.toAtStart, fun ns hn => ?_⟩
  have := h.rewinds ns (fun n hm => Nat.le_trans (hn n hm) hc)
  revert this
  cases m.seek0 (afterReads m.toInStream s ns) with
  | none => exact id
  | some p =>
    obtain ⟨r, s'⟩ := p
    cases r with
    | ok u => exact fun h => ⟨h.1, hst h.2⟩
    | err e => exact id
    | ub e => exact id

theorem store_stored {z : Inflater} {w : World} {safe : Prop} {enc : Encoding} {text : Bytes} {st : Store}
    (h : StoreHoldsText z w safe enc text st) :
    ∃ f : StoreFile (storeSrc z), st.openRead z w = .ok f.stream ∧ f.zeroCopy = InMemory st ∧ Stored safe enc text f := by
  obtain ⟨⟨file, h1, h2, h3⟩, hs, h4, h5⟩ := h
  obtain ⟨s, e, hsrc⟩ := store_source h1
  refine ⟨⟨file, InMemory st, st.compression == .none, s⟩, e, rfl, hsrc.mono (by omega), h2, ?_, ?_, h4, h5⟩
  · intro hm
    cases st <;> simp [InMemory] at hm <;> simp [Store.compression, hm]
  · intro a b
    rcases h3 a b with h | h
    · left; simp [h]
    · exact Or.inr h

end Mlio
