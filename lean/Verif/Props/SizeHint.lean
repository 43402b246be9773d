import Verif.Spec.SizeHint
import Verif.Props.Text
import Verif.Props.RecordIO
import Verif.Props.Parquet

/-! # The expected size of records: C117 -/

namespace Mlio
open Spec

theorem hintEnds_ge {v next r : Nat} (h : HintEnds v next r) : v ≤ r := by
  induction h with
  | stop next h => omega
  | shift next r _ _ ih => exact ih

theorem hintEnds_grows {v next r : Nat} (h : HintEnds v next r) : next ≤ r := by
  cases h with
  | stop => exact Nat.le_refl _
  | shift _ _ h1 h2 => have := hintEnds_ge h2; omega

theorem hintEnds_small {v : Nat} (hv : v ≤ 2 ^ 63) : ∀ (fuel next : Nat), 0 < next → v ≤ next + fuel →
    ∃ r, HintEnds v next r ∧ (r = next ∨ r < 2 * v) := by
  intro fuel
  induction fuel with
  | zero => intro next _ h; exact ⟨next, .stop next (by omega), .inl rfl⟩
  | succ fuel ih =>
    intro next hp h
    by_cases hn : v > next
    · have hm : next * 2 % 2 ^ 64 = next * 2 := Nat.mod_eq_of_lt (by omega)
      obtain ⟨r, h1, h2⟩ := ih (next * 2) (by omega) (by omega)
      exact ⟨r, .shift next r hn (by rw [hm]; exact h1), .inr (by omega)⟩
    · exact ⟨next, .stop next hn, .inl rfl⟩

theorem hintEnds_unique {v next r r' : Nat} (h : HintEnds v next r) (h' : HintEnds v next r') : r = r' := by
  induction h with
  | stop next h =>
    cases h' with
    | stop => rfl
    | shift _ _ h1 => exact absurd h1 h
  | shift next r h1 _ ih =>
    cases h' with
    | stop _ h2 => exact absurd h1 h2
    | shift _ _ _ h3 => exact ih h3

theorem hintEnds_inv {st : Reader} (hi : st.Inv) {v r : Nat} (h : HintEnds v st.cr.next r) :
    Reader.Inv { st with cr := { st.cr with next := r } } := by
  have := hintEnds_grows h
  refine ⟨Nat.lt_of_lt_of_le hi.pos this, hi.none_empty, fun c hc => ?_, hi.eof_done⟩
  have h2 := hi.held_le c hc
  simp only at h2 ⊢
  omega

theorem hintRun_records {ρ : Type} {dec : Bytes → Bool → Dec ρ} {Good : Bytes → Prop} (L : Laws dec Good) {st : Reader}
    {as : List HintAct} {os : List (HintOut ρ)} (h : HintRun dec st as os) (hi : st.Inv) (hg : Good st.total) :
    recordsOf os = wholeN dec (readsIn as) st.total := by
  induction h with
  | nil st => rfl
  | read st as os _ ih =>
    obtain ⟨h1, h2, h3, h4⟩ := readCore_spec L (st.cr.stream.data.length + 2) st hi hg (by
      simp only [Reader.need]; split <;> omega)
    have := ih h2 h3
    show (st.read dec).1 :: recordsOf os = wholeN dec (readsIn as + 1) st.total
    rw [this]
    simp only [Reader.read, wholeN]
    rw [h1, h4]
  | hint st v r as os he _ ih => exact ih (hintEnds_inv hi he) hg
  | get st as os _ ih => exact ih hi hg

theorem hintRun_returns {ρ : Type} {dec : Bytes → Bool → Dec ρ} {Good : Bytes → Prop} (L : Laws dec Good) :
    ∀ (as : List HintAct) (st : Reader), st.Inv → Good st.total → HintsFit as → ∃ os, HintRun dec st as os
  | [], st, _, _, _ => ⟨[], .nil st⟩
  | .read :: as, st, hi, hg, hf => by
    obtain ⟨h1, h2, h3, h4⟩ := readCore_spec L (st.cr.stream.data.length + 2) st hi hg (by
      simp only [Reader.need]; split <;> omega)
    obtain ⟨os, h⟩ := hintRun_returns L as (st.read dec).2 h2 h3 fun v hv => hf v (by simp [hv])
    exact ⟨_, .read st as os h⟩
  | .hint v :: as, st, hi, hg, hf => by
    obtain ⟨r, h1, _⟩ := hintEnds_small (hf v (by simp)) v st.cr.next hi.pos (by omega)
    obtain ⟨os, h⟩ := hintRun_returns L as _ (hintEnds_inv hi h1) hg fun v hv => hf v (by simp [hv])
    exact ⟨os, .hint st v r as os h1 h⟩
  | .get :: as, st, hi, hg, hf => by
    obtain ⟨os, h⟩ := hintRun_returns L as st hi hg fun v hv => hf v (by simp [hv])
    exact ⟨_, .get st as os h⟩

theorem init_total (size : Nat) (data : Bytes) (sched : List Nat) : (Reader.init size data sched).total = data := by
  simp [Reader.total, Reader.init]

/-- **C117** for RecordIO, whatever the bytes: in every history of calls, the records and errors are those of the contents, in order, whichever sizes are
announced, and when. -/
theorem C117_recordio (data : Bytes) (size : Nat) (hsize : 0 < size) (sched : List Nat) (as : List HintAct) (os : List (HintOut Record))
    (h : HintRun recordioDecode (Reader.init size data sched) as os) : recordsOf os = wholeN recordioDecode (readsIn as) data := by
  rw [hintRun_records recordio_laws h (Reader.init_inv size hsize _ _) trivial, init_total]

/-- **C117** for Parquet. -/
theorem C117_parquet (data : Bytes) (size : Nat) (hsize : 0 < size) (sched : List Nat) (as : List HintAct) (os : List (HintOut Record))
    (h : HintRun parquetDecode (Reader.init size data sched) as os) : recordsOf os = wholeN parquetDecode (readsIn as) data := by
  rw [hintRun_records parquet_laws h (Reader.init_inv size hsize _ _) trivial, init_total]

/-- **C117**, partial, for lines of text: missing are the texts whose lines depend on chunks (`C05_crlf_violated`, `C05_bom_violated`). -/
theorem C117_text_partial (skipBlank : Bool) (data : Bytes) (hcrlf : skipBlank = false → ¬ [13, 10] <:+: data)
    (hbom : NoLineMark data ∨ ∃ y, data = utf8Bom ++ y ∧ NoLineMark y) (size : Nat) (hsize : 0 < size) (sched : List Nat) (as : List HintAct)
    (os : List (HintOut Record)) (h : HintRun (textDecode skipBlank) (Reader.init size data sched) as os) :
    recordsOf os = wholeN (textDecode skipBlank) (readsIn as) data := by
  have : CsvGood (textParams skipBlank) data := by
    refine ⟨?_, bomOk_of_noLineMark hbom _⟩
    cases skipBlank with
    | true => exact Or.inr (Or.inr ⟨rfl, rfl, by decide, by decide⟩)
    | false => exact Or.inl (hcrlf rfl)
  rw [textDecode_fun] at h ⊢
  rw [hintRun_records (csv_laws _) h (Reader.init_inv size hsize _ _) (by rw [init_total]; exact this), init_total]

/-- **C117**, partial: every call returns, if no size above `2^63` is announced. -/
theorem C117_returns_partial (data : Bytes) (size : Nat) (hsize : 0 < size) (sched : List Nat) (as : List HintAct) (hf : HintsFit as) :
    (∃ os, HintRun recordioDecode (Reader.init size data sched) as os) ∧ ∃ os, HintRun parquetDecode (Reader.init size data sched) as os :=
  ⟨hintRun_returns recordio_laws as _ (Reader.init_inv size hsize _ _) trivial hf,
    hintRun_returns parquet_laws as _ (Reader.init_inv size hsize _ _) trivial hf⟩

theorem hint_stuck {v next r : Nat} (hv : 2 ^ 63 < v) (hn : next = 0 ∨ ∃ k, k ≤ 63 ∧ next = 2 ^ k) : ¬ HintEnds v next r := by
  intro h
  induction h with
  | stop next h =>
    rcases hn with rfl | ⟨k, hk, rfl⟩
    · omega
    · have : 2 ^ k ≤ 2 ^ 63 := Nat.pow_le_pow_right (by decide) hk
      omega
  | shift next r _ _ ih =>
    refine ih ?_
    rcases hn with rfl | ⟨k, hk, rfl⟩
    · exact .inl rfl
    · by_cases h63 : k = 63
      · subst h63
        exact .inl (by decide)
      · have h64 : 2 ^ (k + 1) < 2 ^ 64 := Nat.pow_lt_pow_right (by decide) (by omega)
        exact .inr ⟨k + 1, by omega, by rw [← Nat.pow_succ]; exact Nat.mod_eq_of_lt h64⟩

/-- **C117 is violated** for greater sizes: with a new reader over any contents, whose chunks have 32 MiB (`default_chunk_reader.h` 54), the call never returns. -/
theorem C117_huge_violated {ρ : Type} (dec : Bytes → Bool → Dec ρ) (data : Bytes) (sched : List Nat) (v : Nat) (hv : 2 ^ 63 < v) (as : List HintAct)
    (os : List (HintOut ρ)) : ¬ HintRun dec (Reader.init (2 ^ 25) data sched) (.hint v :: as) os := by
  intro h
  cases h with
  | hint _ _ r _ _ he _ => exact hint_stuck hv (.inr ⟨25, by decide, rfl⟩) he

/-- **C117**: for streams that are read in chunks, the size reported next is at least the one announced, it never falls, and it stays as it is or below the double of the
announced one. -/
theorem C117_size_partial {ρ : Type} (dec : Bytes → Bool → Dec ρ) (st : Reader) (hp : 0 < st.cr.next) (v : Nat) (hv : v ≤ 2 ^ 63) (as : List HintAct)
    (os : List (HintOut ρ)) (h : HintRun dec st (.get :: .hint v :: .get :: as) os) :
    ∃ a b os', os = .size a :: .size b :: os' ∧ a ≤ b ∧ v ≤ b ∧ (b = a ∨ b < 2 * v) := by
  cases h with
  | get _ _ os h =>
    cases h with
    | hint _ _ r _ _ he h =>
      cases h with
      | get _ _ os h =>
        obtain ⟨r', h1, h2⟩ := hintEnds_small hv v st.cr.next hp (by omega)
        have := hintEnds_unique he h1
        subst this
        exact ⟨_, _, os, rfl, hintEnds_grows he, hintEnds_ge he, h2⟩

theorem memHint_records {ρ : Type} (dec : Bytes → Bool → Dec ρ) : ∀ (as : List HintAct) (st : MemReader),
    recordsOf (memHintRun dec st as) = MemReader.readN dec (readsIn as) st
  | [], _ => rfl
  | .read :: as, st => congrArg (_ :: ·) (memHint_records dec as (st.read dec).2)
  | .hint _ :: as, st => memHint_records dec as st
  | .get :: as, st => memHint_records dec as st

/-- **C117** for contents in memory: the records are those of the contents, too. -/
theorem C117_memory (data : Bytes) (as : List HintAct) :
    recordsOf (memHintRun recordioDecode ⟨data, []⟩ as) = wholeN recordioDecode (readsIn as) data ∧
    recordsOf (memHintRun parquetDecode ⟨data, []⟩ as) = wholeN parquetDecode (readsIn as) data := by
  rw [memHint_records, memHint_records]
  exact ⟨memReadN_eq_wholeN recordio_laws.empty recordio_laws.noub _ _, memReadN_eq_wholeN parquet_laws.empty parquet_laws.noub _ _⟩

/-- **C117 is violated** for contents in memory: whatever was announced, the size that is reported is zero. -/
theorem C117_memory_size_violated {ρ : Type} (dec : Bytes → Bool → Dec ρ) (st : MemReader) (as : List HintAct) (n : Nat)
    (h : HintOut.size n ∈ memHintRun dec st as) : n = 0 := by
  induction as generalizing st with
  | nil => cases h
  | cons a as ih =>
    cases a with
    | read =>
      rcases List.mem_cons.1 h with h | h
      · cases h
      · exact ih _ h
    | hint v => exact ih st h
    | get =>
      rcases List.mem_cons.1 h with h | h
      · cases h; rfl
      · exact ih _ h

/-- Two records in chunks of four bytes; a size of a hundred bytes is announced between them. -/
example : let data := recordioFile [⟨0, [1, 2, 3], [0]⟩, ⟨0, [4], [0, 0, 0]⟩]
    ∃ os, HintRun recordioDecode (Reader.init 4 data [1]) [.read, .get, .hint 100, .get, .read, .read] os ∧
      recordsOf os = [.ok (some ⟨0, [1, 2, 3]⟩), .ok (some ⟨0, [4]⟩), .ok none] := by
  intro data
  obtain ⟨os, h⟩ := (C117_returns_partial data 4 (by decide) [1] [.read, .get, .hint 100, .get, .read, .read]
    (by intro v hv; simp at hv; subst hv; decide)).1
  exact ⟨os, h, (C117_recordio data 4 (by decide) [1] _ os h).trans (by decide +kernel)⟩

/-- In memory, a size of 100 is announced, and 0 is reported. -/
example : HintOut.size 0 ∈ memHintRun recordioDecode ⟨recordioFile [⟨0, [4], [0, 0, 0]⟩], []⟩ [.hint 100, .get] := List.mem_singleton.2 rfl

/-- Lines of text, with and without blank lines. -/
example : ∃ os, HintRun (textDecode true) (Reader.init 2 [97, 13, 10, 98, 10] []) [.hint 3, .read, .read] os :=
  hintRun_returns (Good := CsvGood (textParams true)) (by rw [textDecode_fun]; exact csv_laws _) _ _ (Reader.init_inv 2 (by decide) _ _)
    ⟨Or.inr (Or.inr ⟨rfl, rfl, by decide, by decide⟩), bomOk_of_noLineMark (.inl (by unfold NoLineMark; decide)) _⟩
    (by intro v hv; simp at hv; subst hv; decide)

end Mlio
