import Verif.Spec.ChunkHeap
import Verif.Proofs.TextLaws
import Verif.Proofs.RecordIO
import Verif.Model.Parquet

namespace Mlio
open Spec

/-- What a decoder returns for the chunk `x` are parts of `x`. -/
def Cuts (x : Bytes) : Dec Record → Prop
  | .got r rest => (∃ a b, x = a ++ r.payload ++ b ++ rest) ∧ rest <:+ x ∧ rest.length < x.length
  | .more rest _ => rest <:+ x
  | .fail _ rest => rest <:+ x
  | .ub _ => True

theorem Cuts.mono {x y : Bytes} (h : y <:+ x) {o : Dec Record} (ho : Cuts y o) : Cuts x o := by
  cases o with
  | got r rest =>
    obtain ⟨⟨a, b, hab⟩, h2, h3⟩ := ho
    obtain ⟨c, hc⟩ := h
    refine ⟨⟨c ++ a, b, by rw [← hc, hab]; simp⟩, h2.trans ⟨c, hc⟩, ?_⟩
    have := congrArg List.length hc
    simp only [List.length_append] at this
    omega
  | more rest k => exact List.IsSuffix.trans ho h
  | fail e rest => exact List.IsSuffix.trans ho h
  | ub w => trivial

/-- A part that ends where the rest begins, or before. -/
theorem parts_of (x : Bytes) (o n m : Nat) (h : o + n ≤ m) : ∃ a b, x = a ++ (x.drop o).take n ++ b ++ x.drop m := by
  refine ⟨x.take o, (x.drop (o + n)).take (m - (o + n)), ?_⟩
  have h1 : x.drop (o + n) = (x.drop (o + n)).take (m - (o + n)) ++ x.drop m := by
    conv => lhs; rw [← List.take_append_drop (m - (o + n)) (x.drop (o + n))]
    rw [List.drop_drop]
    congr 2; omega
  have h2 : x.drop o = (x.drop o).take n ++ x.drop (o + n) := by
    conv => lhs; rw [← List.take_append_drop n (x.drop o)]
    rw [List.drop_drop]
  conv => lhs; rw [← List.take_append_drop o x, h2, h1]
  simp

theorem sliceFirst_eq {x p : Bytes} {n : Nat} (h : sliceFirst x n = .ok p) : n ≤ x.length ∧ p = (x.drop 0).take n := by
  unfold sliceFirst at h
  split at h
  · cases h; exact ⟨by assumption, by simp⟩
  · cases h

theorem subslice_eq {x p : Bytes} {n m : Nat} (h : subslice x n m = .ok p) : n + m ≤ x.length ∧ p = (x.drop n).take m := by
  unfold subslice at h
  split at h
  · cases h; exact ⟨by omega, rfl⟩
  · cases h

theorem subsliceFrom_eq {x p : Bytes} {n : Nat} (h : subsliceFrom x n = .ok p) : p = x.drop n := by
  unfold subsliceFrom at h
  split at h
  · cases h; rfl
  · cases h

/-- A first part, and nothing left. -/
theorem parts_all (x : Bytes) {p : Bytes} {n : Nat} (h : sliceFirst x n = .ok p) : ∃ a b, x = a ++ p ++ b ++ [] := by
  obtain ⟨h1, h2⟩ := sliceFirst_eq h
  obtain ⟨a, b, hab⟩ := parts_of x 0 n x.length (by omega)
  rw [List.drop_length] at hab
  exact ⟨a, b, by rw [h2]; exact hab⟩

theorem subsliceFrom_suffix {x p : Bytes} {n : Nat} (h : subsliceFrom x n = .ok p) :
    p <:+ x ∧ p.length = x.length - n := by
  unfold subsliceFrom at h
  split at h
  · cases h; exact ⟨List.drop_suffix _ _, by simp⟩
  · cases h

theorem headerPayload_le (d : Nat) : headerPayloadSize d ≤ align4 (headerPayloadSize d) := by
  have h : headerPayloadSize d < 2 ^ 29 := by rw [headerPayloadSize_eq]; exact Nat.mod_lt _ (by decide)
  rw [align4_eq _ (by omega)]
  omega

theorem recordio_cuts (x : Bytes) (ig : Bool) : Cuts x (recordioDecode x ig) := by
  unfold recordioDecode
  split
  · exact List.suffix_refl _
  · rename_i hne
    have hpos : 0 < x.length := by cases x <;> simp_all
    split
    · exact List.suffix_refl _
    · trivial
    · split <;> exact List.suffix_refl _
    · simp only
      split
      · split <;> exact List.suffix_refl _
      · split
        · exact List.suffix_refl _
        · trivial
        · rename_i p hp
          split
          · exact List.suffix_refl _
          · trivial
          · rename_i rest hr
            obtain ⟨h1, h2⟩ := subsliceFrom_suffix hr
            refine ⟨?_, h1, by simp only [headerSize] at *; omega⟩
            rw [(subslice_eq hp).2, subsliceFrom_eq hr]
            exact parts_of x _ _ _ (Nat.add_le_add_left (headerPayload_le _) _)

theorem parquet_cuts (x : Bytes) (ig : Bool) : Cuts x (parquetDecode x ig) := by
  unfold parquetDecode
  split
  · exact List.suffix_refl _
  · rename_i hne
    have hpos : 0 < x.length := by cases x <;> simp_all
    split
    · split <;> exact List.suffix_refl _
    · split
      · exact List.suffix_refl _
      · trivial
      · exact List.suffix_refl _
      · split
        · split <;> exact List.suffix_refl _
        · split
          · exact List.suffix_refl _
          · trivial
          · split <;> exact List.suffix_refl _
          · split
            · exact List.suffix_refl _
            · trivial
            · rename_i p hp
              split
              · exact List.suffix_refl _
              · trivial
              · rename_i rest hr
                obtain ⟨h1, h2⟩ := subsliceFrom_suffix hr
                refine ⟨?_, h1, by omega⟩
                rw [(sliceFirst_eq hp).2, subsliceFrom_eq hr]
                exact parts_of x 0 _ _ (by omega)

theorem readLine_cuts (x : Bytes) (ig : Bool) (m : Option Nat) : Cuts x (readLine x ig m) := by
  cases ho : readLine x ig m with
  | ub w => trivial
  | got r rest =>
    obtain ⟨h1, h2⟩ := readLine_got_suffix _ _ _ _ _ ho
    refine ⟨?_, h1, h2⟩
    unfold readLine at ho
    simp only at ho
    repeat' split at ho
    all_goals first
      | (cases ho; exact parts_all x (by assumption))
      | (cases ho
         rename_i hp _ _ hr
         rw [(sliceFirst_eq hp).2, subsliceFrom_eq hr]
         exact parts_of x 0 _ _ (by split <;> omega))
      | cases ho
  | more rest k =>
    unfold readLine at ho
    simp only at ho
    repeat' split at ho
    all_goals first
      | (cases ho; exact List.suffix_refl _)
      | cases ho
  | fail e rest =>
    unfold readLine at ho
    simp only at ho
    repeat' split at ho
    all_goals first
      | (cases ho; exact List.suffix_refl _)
      | cases ho

theorem csvReadLine_cuts (p : CsvParams) (x : Bytes) (ig : Bool) : Cuts x (csvReadLine p x ig) := by
  cases ho : csvReadLine p x ig with
  | ub w => trivial
  | got r rest =>
    obtain ⟨h1, h2⟩ := csvReadLine_got_suffix _ _ _ _ _ ho
    refine ⟨?_, h1, h2⟩
    unfold csvReadLine at ho
    repeat' split at ho
    all_goals first
      | (cases ho; refine ⟨[], [], ?_⟩; simp; done)
      | (cases ho; rename_i hp; exact parts_all x hp)
      | (cases ho
         rename_i hp _ hr
         rw [(sliceFirst_eq hp).2, subsliceFrom_eq hr]
         exact parts_of x 0 _ _ (by split <;> omega))
      | cases ho
  | more rest k =>
    unfold csvReadLine at ho
    repeat' split at ho
    all_goals first
      | (cases ho; exact List.suffix_refl _)
      | cases ho
  | fail e rest =>
    unfold csvReadLine at ho
    repeat' split at ho
    all_goals first
      | (cases ho; exact List.suffix_refl _)
      | cases ho

theorem rowReader_cuts (p : CsvParams) (x : Bytes) (ig : Bool) : Cuts x (rowReader p x ig) := by
  unfold rowReader
  split
  · exact csvReadLine_cuts _ _ _
  · exact readLine_cuts _ _ _

theorem csvLoop_cuts (p : CsvParams) : ∀ (fuel : Nat) (x : Bytes) (ig : Bool), Cuts x (csvLoop p fuel x ig)
  | 0, x, ig => by
    unfold csvLoop
    split <;> exact List.suffix_refl _
  | fuel + 1, x, ig => by
    unfold csvLoop
    split
    · exact List.suffix_refl _
    · split
      · have := readLine_cuts x ig none
        split
        · rename_i heq
          rw [heq] at this
          exact (csvLoop_cuts p fuel _ ig).mono this.2.1
        · exact this
      · have := rowReader_cuts p x ig
        split
        · rename_i heq
          rw [heq] at this
          split
          · exact this
          · exact (csvLoop_cuts p fuel _ ig).mono this.2.1
        · exact this

theorem textLoop_cuts : ∀ (fuel : Nat) (x : Bytes) (ig : Bool), Cuts x (textLoop fuel x ig)
  | 0, x, ig => by
    unfold textLoop
    split <;> exact List.suffix_refl _
  | fuel + 1, x, ig => by
    unfold textLoop
    split
    · exact List.suffix_refl _
    · have := readLine_cuts x ig none
      split
      · rename_i heq
        rw [heq] at this
        split
        · exact this
        · exact (textLoop_cuts fuel _ ig).mono this.2.1
      · exact this

theorem textRecord_cuts (d : Bytes → Bool → Dec Record) (hd : ∀ x ig, Cuts x (d x ig)) (x : Bytes) (ig : Bool) :
    Cuts x (textRecord d x ig) := by
  unfold textRecord
  split
  · exact List.suffix_refl _
  · split
    · rename_i c hc
      refine (hd c ig).mono ?_
      unfold skipBom at hc
      split at hc
      · split at hc
        · cases hc
          exact ⟨[_, _, _], rfl⟩
        · cases hc
          exact List.suffix_refl _
      · split at hc
        · cases hc
        · cases hc
          exact List.suffix_refl _
    · exact List.suffix_refl _

theorem csv_cuts (p : CsvParams) (x : Bytes) (ig : Bool) : Cuts x (csvDecode p x ig) :=
  textRecord_cuts _ (fun x ig => csvLoop_cuts p _ x ig) x ig

theorem text_cuts (b : Bool) (x : Bytes) (ig : Bool) : Cuts x (textDecode b x ig) := by
  refine textRecord_cuts _ ?_ x ig
  intro x ig
  unfold textDecodeText
  split
  · exact List.suffix_refl _
  · split
    · exact textLoop_cuts _ x ig
    · exact readLine_cuts _ _ _

theorem infix_at {p x rest : Bytes} (h : ∃ a b, x = a ++ p ++ b ++ rest) :
    ∃ o, o + p.length + rest.length ≤ x.length ∧ (x.drop o).take p.length = p := by
  obtain ⟨a, b, rfl⟩ := h
  refine ⟨a.length, by simp only [List.length_append]; omega, ?_⟩
  rw [List.append_assoc, List.append_assoc, List.drop_left, List.take_left]

theorem located_of_cuts {dec : Bytes → Bool → Dec Record} (h : ∀ x ig, Cuts x (dec x ig)) :
    ∃ off, Located dec off := by
  have : ∀ x ig, ∃ o, ∀ r rest, dec x ig = .got r rest → o + r.payload.length + rest.length ≤ x.length ∧
      (x.drop o).take r.payload.length = r.payload := by
    intro x ig
    have hx := h x ig
    cases hd : dec x ig with
    | got r rest =>
      rw [hd] at hx
      obtain ⟨o, ho⟩ := infix_at hx.1
      refine ⟨o, ?_⟩
      intro r' rest' he
      cases he
      exact ho
    | more rest k => exact ⟨0, fun r rest h => by cases h⟩
    | fail e rest => exact ⟨0, fun r rest h => by cases h⟩
    | ub w => exact ⟨0, fun r rest h => by cases h⟩
  refine ⟨fun x ig => Classical.choose (this x ig), ?_, ?_, ?_⟩
  · intro x ig r rest hd
    have hx := h x ig
    rw [hd] at hx
    exact ⟨hx.2.1, hx.2.2, Classical.choose_spec (this x ig) r rest hd⟩
  · intro x ig rest k hd
    have hx := h x ig
    rw [hd] at hx
    exact hx
  · intro x ig e rest hd
    have hx := h x ig
    rw [hd] at hx
    exact hx

end Mlio
