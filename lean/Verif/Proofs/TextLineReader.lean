import Verif.Spec.TextLineReader
import Verif.Spec.CsvSchema
import Verif.Proofs.TextSource
import Verif.Props.Utf8Stream
import Verif.Props.Text
import Verif.Props.Instances

/-!
# The text line reader as a whole: proofs
-/

namespace Mlio
open Spec

/-! ## Contents smaller than a chunk -/

theorem readN_atEnd {ρ : Type} (dec : Bytes → Bool → Dec ρ) (n : Nat) : ∀ (st : Reader), st.cr.eof = true →
    st.cr.stream.data = [] → st.readN dec n = wholeN dec n st.chunk := by
  induction n with
  | zero => intro st _ _; rfl
  | succ n ih =>
    intro st he hd
    have hrd : ∃ st', st.read dec = ((wholeStep dec st.chunk).1, st') ∧ st'.cr.eof = true ∧ st'.cr.stream.data = [] ∧
        st'.chunk = (wholeStep dec st.chunk).2 := by
      obtain ⟨⟨⟨data, sched⟩, next, held, eof⟩, chunk⟩ := st
      simp only at he hd
      subst he hd
      unfold Reader.read
      simp only [List.length_nil, Nat.zero_add]
      unfold Reader.readCore wholeStep
      simp only [Bool.not_true]
      cases hc : dec chunk false with
      | got r rest => exact ⟨_, rfl, rfl, rfl, rfl⟩
      | fail e rest => exact ⟨_, rfl, rfl, rfl, rfl⟩
      | ub w => exact ⟨_, rfl, rfl, rfl, rfl⟩
      | more rest hint => exact ⟨_, by simp [ChunkReader.readChunk]; rfl, rfl, rfl, rfl⟩
    obtain ⟨st', h1, h2, h3, h4⟩ := hrd
    simp only [Reader.readN, wholeN, h1]
    rw [ih st' h2 h3, h4]

theorem small_readN {ρ : Type} (dec : Bytes → Bool → Dec ρ) (hnil : ∀ ig, dec [] ig = .more [] 0) (size : Nat)
    (data : Bytes) (hlt : data.length < size) (sched : List Nat) (n : Nat) :
    (Reader.init size data sched).readN dec n = wholeN dec n data := by
  cases n with
  | zero => rfl
  | succ n =>
    obtain ⟨got, s', e, h1, h2, h3, h4, h5⟩ := fillLoop_spec size ⟨data, sched⟩ size (Nat.le_refl _)
    have hlen : got.length ≤ data.length := by
      have := congrArg List.length h2
      simp only [List.length_append] at this
      omega
    have he : e = true := by
      cases e with
      | true => rfl
      | false => have := h5 rfl; omega
    subst he
    have hs := h4 rfl
    rw [hs, List.append_nil] at h2
    simp only at h2
    subst h2
    have hchunk : ({ stream := ⟨got, sched⟩, next := size, held := none, eof := false } : ChunkReader).readChunk [] =
        .ok (got, ⟨s', size, none, true⟩) := by
      simp [ChunkReader.readChunk, ChunkReader.nextSize, h1]
    have hgrow : growHint 0 size 0 = size := rfl
    by_cases hg : got = []
    · subst hg
      have hr : (Reader.init size [] sched).read dec = (.ok none, ⟨⟨s', size, none, true⟩, []⟩) := by
        simp only [Reader.read, Reader.readCore, Reader.init, hnil, hgrow, hchunk]
        simp
      have hw : wholeStep dec [] = (.ok none, []) := by simp [wholeStep, hnil]
      simp only [Reader.readN, wholeN, hr, hw]
      rw [readN_atEnd dec n _ rfl hs]
    · have hr : (Reader.init size got sched).read dec =
          Reader.readCore dec (got.length + 1) ⟨⟨s', size, none, true⟩, got⟩ := by
        simp only [Reader.read, Reader.init]
        rw [show (got.length + 2) = (got.length + 1) + 1 from rfl, Reader.readCore]
        simp only [hnil, hgrow, hchunk]
        rw [if_neg (by simpa using hg)]
      have hp : 0 < got.length := List.length_pos_iff.2 hg
      have h2 := readN_atEnd dec (n + 1) ⟨⟨s', size, none, true⟩, got⟩ rfl hs
      have hr2 : Reader.readCore dec (got.length + 1) ⟨⟨s', size, none, true⟩, got⟩ =
          Reader.read dec ⟨⟨s', size, none, true⟩, got⟩ := by
        obtain ⟨k, hk⟩ : ∃ k, got.length = k + 1 := ⟨got.length - 1, by omega⟩
        simp only [Reader.read, hs, List.length_nil, hk]
        unfold Reader.readCore
        simp only [Bool.not_true]
        cases hc : dec got false with
        | got r rest => rfl
        | fail e rest => rfl
        | ub w => rfl
        | more rest hint => simp [ChunkReader.readChunk]
      have h3 : (Reader.init size got sched).readN dec (n + 1) =
          Reader.readN dec (n + 1) ⟨⟨s', size, none, true⟩, got⟩ := by
        simp only [Reader.readN, hr, hr2]
      rw [h3, h2]

/-! ## One file -/

/-- Decoding the whole contents gives the rows and then the end. -/
def RowsOf (p : CsvParams) (content : Bytes) (rows : List Bytes) : Prop :=
  ∀ n, wholeN (csvDecode p) n content =
    ((rows.map fun r => (⟨0, r⟩ : Record)).map (fun x => Res.ok (some x)) ++ List.replicate n (Res.ok none)).take n

theorem wholeN_take {ρ : Type} (dec : Bytes → Bool → Dec ρ) (m k : Nat) (x : Bytes) :
    (wholeN dec (m + k) x).take m = wholeN dec m x := by
  induction m generalizing x with
  | zero => simp [wholeN]
  | succ m ih => rw [Nat.add_right_comm]; simp [wholeN, ih]

theorem rowsOf_of {p : CsvParams} {content : Bytes} {rows : List Bytes}
    (h : ∀ k, wholeN (csvDecode p) (rows.length + k) content =
      rows.map (fun b => .ok (some ⟨0, b⟩)) ++ List.replicate k (.ok none)) : RowsOf p content rows := by
  intro n
  have h2 := congrArg (List.take n) (h n)
  rw [Nat.add_comm, wholeN_take] at h2
  rw [h2, List.map_map]
  rfl

theorem rowsOf_bom {p : CsvParams} {x : Bytes} {rows : List Bytes} (hx : ¬ utf8Bom <+: x) (h : RowsOf p x rows) :
    RowsOf p (utf8Bom ++ x) rows := by
  intro n
  rw [← h n]
  apply wholeN_congr (csvDecode_noub p)
  rw [show utf8Bom = bom from rfl, csvDecode_bom, csvDecode_nobom p x hx]

theorem rows_outcome {rows : List Record} {n : Nat} {o : Res (Option Record)}
    (h : o ∈ (rows.map (fun x => Res.ok (some x)) ++ List.replicate n (Res.ok none)).take n) : ∃ r, o = .ok r := by
  have h := List.mem_of_mem_take h
  rcases List.mem_append.1 h with h | h
  · obtain ⟨r, _, rfl⟩ := List.mem_map.1 h; exact ⟨_, rfl⟩
  · exact ⟨none, (List.mem_replicate.1 h).2⟩

theorem csvDecode_nil (p : CsvParams) (ig : Bool) : csvDecode p [] ig = .more [] 0 := by
  simp [csvDecode, textRecord]

theorem csvLoop_hint (p : CsvParams) (ig : Bool) (fuel : Nat) : ∀ (c rest : Bytes) (k : Nat),
    csvLoop p fuel c ig = .more rest k → k = 0 := by
  induction fuel with
  | zero =>
    intro c rest k h
    unfold csvLoop at h
    split at h <;> simp at h
    exact h.2.symm
  | succ fuel ih =>
    intro c rest k h
    unfold csvLoop at h
    split at h
    · simp at h; exact h.2.symm
    · split at h
      · split at h
        · exact ih _ _ _ h
        · exact (readLine_more_eq _ _ _ _ _ h).2.1
      · split at h
        · split at h
          · cases h
          · exact ih _ _ _ h
        · exact (rowReader_more_eq _ _ _ _ _ h).2.1

theorem csv_tame (p : CsvParams) : Tame (csvDecode p) 0 := by
  intro chunk ig
  have hs := csvDecode_suffix p ig chunk
  cases h : csvDecode p chunk ig with
  | got r rest => exact (hs rest (Or.inl ⟨r, h⟩)).length_le
  | fail e rest => exact (hs rest (Or.inr (Or.inl ⟨e, h⟩))).length_le
  | ub w => trivial
  | more rest k =>
    refine ⟨(hs rest (Or.inr (Or.inr ⟨k, h⟩))).length_le, ?_⟩
    unfold csvDecode textRecord csvDecodeText at h
    split at h
    · simp at h; omega
    · split at h
      · exact Nat.le_of_eq (csvLoop_hint p ig _ _ _ _ h)
      · simp at h; omega

theorem lineMachine_memory_outs (codec m p fuel) (r : MemReader) (n : Nat) :
    (lineMachine codec m (csvDecode p) fuel).outs n (.memory r) = r.readN (csvDecode p) n := by
  induction n generalizing r with
  | zero => rfl
  | succ n ih => exact congrArg (_ :: ·) (ih _)

theorem lineMachine_stream_outs (codec) (m : SrcClass) (p fuel) (r : GReader (textOver m.toInStream codec fuel)) (n : Nat) :
    (lineMachine codec m (csvDecode p) fuel).outs n (.stream r) = r.readN (csvDecode p) fuel n := by
  induction n generalizing r with
  | zero => rfl
  | succ n ih => exact congrArg (_ :: ·) (ih _)

/-- What the text stream over the stream of a data store delivers has a bounded size. -/
def Backed (codec : String → Codec) (m : SrcClass) (fuel B : Nat) (encoding : Option String) (s : m.σ) : Prop :=
  ∃ content : Bytes, 2 * content.length ≤ B ∧ ∀ t, makeText codec m chunkSize s encoding = .ok t →
    SuppliesTo B (textOver m.toInStream codec fuel) t content

/-- `openLines_yields` with more. -/
theorem openLines_backed (codec : String → Codec) {m : SrcClass} (p : CsvParams) (encoding : Option String) (f : StoreFile m)
    (content : Bytes) (rows : List Bytes) (B : Nat) (hB : 2 ^ 31 ≤ B) (hB2 : 2 * content.length ≤ B)
    (hsrc : SourceOf B m f.zeroCopy f.seekable f.bytes f.stream)
    (hs : ∀ sched, ∃ t, makeUtf8Stream codec chunkSize f.bytes f.seekable sched encoding = .ok t ∧
      (∀ ns, TextReads false content ns (t.reads ns)) ∧ (∀ s, t = .same s → content = f.bytes) ∧
      ((f.zeroCopy = true ∧ ∃ s, t = .same s) ∨ content.length < chunkSize ∨ CsvGood p content))
    (hrows : RowsOf p content rows) (fuel : Nat) (hf : content.length + 2 ≤ fuel) (hf2 : f.bytes.length + 2 ≤ fuel) :
    ∃ r, openLines codec m fuel encoding f.stream = .ok r ∧
      (lineMachine codec m (csvDecode p) fuel).Yields r (rows.map fun b => ⟨0, b⟩) (.ok none) ∧
      Backed codec m fuel B encoding f.stream := by
  have hc : chunkSize ≤ B := Nat.le_trans (by decide) hB
  obtain ⟨t, h1, h2, ⟨sched, data, h3⟩, h4⟩ := makeText_reads (codec := codec) (by omega) hc hsrc encoding false content
    (fun sched => by obtain ⟨t, g1, g2, _⟩ := hs sched; exact ⟨t, g1, g2⟩)
  obtain ⟨t', g1, _, g3, g4⟩ := hs sched
  rw [h3] at g1
  cases g1
  have mem : ∀ n, (lineMachine codec m (csvDecode p) fuel).outs n (.memory ⟨content, []⟩) = wholeN (csvDecode p) n content := by
    intro n
    rw [lineMachine_memory_outs, csv_memReadN]
  have str : content.length < chunkSize ∨ CsvGood p content → ∀ n,
      (lineMachine codec m (csvDecode p) fuel).outs n (.stream (GReader.init chunkSize t)) = wholeN (csvDecode p) n content := by
    intro hg n
    rw [lineMachine_stream_outs]
    refine greader_readN_to (m := textOver m.toInStream codec fuel) (csv_tame p) chunkSize fuel n t content B (by omega) hc
      (by omega) hB2 (h4 fuel hf2) hf _ (fun sched => ?_) ?_ ?_
    · rcases hg with hc | hc
      · exact small_readN _ (csvDecode_nil p) _ _ hc _ _
      · exact csv_readN p content chunkSize (by decide) sched n hc
    · intro hx
      rw [hrows n] at hx
      obtain ⟨r, hr⟩ := rows_outcome hx
      cases hr
    · intro w hx
      rw [hrows n] at hx
      obtain ⟨r, hr⟩ := rows_outcome hx
      cases hr
  have hback : Backed codec m fuel B encoding f.stream :=
    ⟨content, hB2, fun t' ht' => by rw [h1] at ht'; cases ht'; exact h4 fuel hf2⟩
  refine (fun ⟨r, a, b⟩ => ⟨r, a, b, hback⟩ : (∃ r, _ ∧ _) → _) ?_
  unfold openLines
  rw [h1]
  cases t with
  | same s =>
    have hcb := g3 _ rfl
    simp only
    rw [h2 s rfl]
    by_cases hz : f.zeroCopy = true
    · rw [if_pos hz]
      refine ⟨_, rfl, fun n => ?_⟩
      rw [← hcb, mem n]
      exact hrows n
    · rw [if_neg hz]
      refine ⟨_, rfl, fun n => ?_⟩
      rw [str (by rcases g4 with h | h; exact absurd h.1 hz; exact h) n]
      exact hrows n
  | wrapped name u =>
    refine ⟨_, rfl, fun n => ?_⟩
    rw [str (by rcases g4 with ⟨_, s, h⟩ | h; cases h; exact h) n]
    exact hrows n

/-- A data store opened by a text reader holds exactly the rows of its text. -/
theorem openLines_yields (codec : String → Codec) {m : SrcClass} (p : CsvParams) (encoding : Option String) (f : StoreFile m)
    (content : Bytes) (rows : List Bytes) (B : Nat) (hB : 2 ^ 31 ≤ B) (hB2 : 2 * content.length ≤ B)
    (hsrc : SourceOf B m f.zeroCopy f.seekable f.bytes f.stream)
    (hs : ∀ sched, ∃ t, makeUtf8Stream codec chunkSize f.bytes f.seekable sched encoding = .ok t ∧
      (∀ ns, TextReads false content ns (t.reads ns)) ∧ (∀ s, t = .same s → content = f.bytes) ∧
      ((f.zeroCopy = true ∧ ∃ s, t = .same s) ∨ content.length < chunkSize ∨ CsvGood p content))
    (hrows : RowsOf p content rows) (fuel : Nat) (hf : content.length + 2 ≤ fuel) (hf2 : f.bytes.length + 2 ≤ fuel) :
    ∃ r, openLines codec m fuel encoding f.stream = .ok r ∧
      (lineMachine codec m (csvDecode p) fuel).Yields r (rows.map fun b => ⟨0, b⟩) (.ok none) := by
  obtain ⟨r, h1, h2, _⟩ := openLines_backed codec p encoding f content rows B hB hB2 hsrc hs hrows fuel hf hf2
  exact ⟨r, h1, h2⟩

end Mlio
