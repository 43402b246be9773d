import Verif.Proofs.Parquet

/-! # C15: Parquet container detection -/

namespace Mlio

open Spec

/-- **C15**, one call on arbitrary bytes.  The decoder never accesses memory outside of the chunk (`ub` is the
outcome of such an access); it returns a record exactly if the chunk starts with something laid out like
a Parquet file, and then the shortest such prefix together with exactly the rest of the chunk; at the end of
the stream any other non-empty chunk is an error, and before the end it is an error only if the first four bytes
are not the magic number. -/
theorem C15_parquet_arbitrary (b : Bytes) (ig : Bool) :
    (∀ w, parquetDecode b ig ≠ .ub w) ∧
    (∀ r rest, parquetDecode b ig = .got r rest ↔
      b = r.payload ++ rest ∧ MinimalParquet r.payload ∧ r.kind = 0) ∧
    ((∃ r rest, parquetDecode b ig = .got r rest) ↔ ∃ x, x <+: b ∧ LooksParquet x) ∧
    (b ≠ [] → (∀ x, x <+: b → ¬ LooksParquet x) →
      (parquetDecode b false = .fail .corruptHeader b ∨ parquetDecode b false = .fail .corruptFooter b) ∧
      ((par1 <+: b ∨ b.length < 4) → parquetDecode b true = .more b 0) ∧
      (¬ par1 <+: b → 4 ≤ b.length → parquetDecode b true = .fail .corruptHeader b)) := by
  have hpre : par1 <+: b ↔ b.take 4 = par1 := by
    rw [List.prefix_iff_eq_take]
    exact eq_comm
  refine ⟨parquet_noub b ig, ?_, ?_, ?_⟩
  · intro r rest
    constructor
    · intro h
      obtain ⟨x, h1, h2, rfl⟩ := parquet_got_inv h
      exact ⟨h1, h2, rfl⟩
    · rintro ⟨h1, h2, h3⟩
      obtain ⟨k, x⟩ := r
      simp only at h1 h2 h3
      subst h3
      rw [h1]
      exact parquetDecode_got x rest h2 ig
  · constructor
    · rintro ⟨r, rest, h⟩
      obtain ⟨x, h1, h2, rfl⟩ := parquet_got_inv h
      exact ⟨x, ⟨rest, h1.symm⟩, h2.1⟩
    · rintro ⟨x, hx, hl⟩
      rcases parquetDecode_spec b ig with ⟨h, _⟩ | ⟨x, y, h1, h2, h⟩ | ⟨_, hno, _⟩
      · subst h
        have := looks_length hl
        have h2 := hx.length_le; rw [List.length_nil] at h2; omega
      · exact ⟨_, _, h⟩
      · exact absurd hl (hno x hx)
  · intro hne hno
    refine ⟨?_, ?_, ?_⟩
    · rcases parquetDecode_spec b false with ⟨h, _⟩ | ⟨x, y, h1, h2, h⟩ | ⟨_, _, ⟨_, _, h⟩ | ⟨_, h⟩⟩
      · exact absurd h hne
      · exact absurd h2.1 (hno x ⟨y, h1.symm⟩)
      · exact Or.inl h
      · rw [h]; simp only [Bool.false_eq_true, if_false]
        split
        · exact Or.inl rfl
        · exact Or.inr rfl
    · intro hp
      rw [hpre] at hp
      rcases parquetDecode_spec b true with ⟨h, _⟩ | ⟨x, y, h1, h2, h⟩ | ⟨_, _, ⟨h4, hn, h⟩ | ⟨_, h⟩⟩
      · exact absurd h hne
      · exact absurd h2.1 (hno x ⟨y, h1.symm⟩)
      · rcases hp with hp | hp
        · exact absurd hp hn
        · omega
      · simpa using h
    · intro hp h4
      rw [hpre] at hp
      rcases parquetDecode_spec b true with ⟨h, _⟩ | ⟨x, y, h1, h2, h⟩ | ⟨_, _, ⟨h4, hn, h⟩ | ⟨h1, h⟩⟩
      · exact absurd h hne
      · exact absurd h2.1 (hno x ⟨y, h1.symm⟩)
      · exact h
      · rcases h1 with h1 | h1
        · omega
        · exact absurd h1 hp

/-- **C15.** The reader looks at single bytes and at groups of four; each such access counts as outside of the chunk
unless all of its bytes are in the chunk.  (So the absence of `ub` above means that nothing outside is read.) -/
theorem C15_access_checked (b : Bytes) (pos : Int) :
    ((∃ v, loadU8 b pos = .ok v) ↔ ∃ i : Nat, pos = i ∧ i < b.length) ∧
    ((∃ v, loadU32 b pos = .ok v) ↔ ∃ i : Nat, pos = i ∧ i + 3 < b.length) := by
  unfold loadU8 loadU32
  constructor
  · split
    · rename_i h
      exact ⟨fun _ => ⟨pos.toNat, by omega, by omega⟩, fun _ => ⟨_, rfl⟩⟩
    · rename_i h
      exact ⟨(by rintro ⟨v, hv⟩; cases hv), (by rintro ⟨i, h1, h2⟩; exact absurd ⟨by omega, by omega⟩ h)⟩
  · split
    · rename_i h
      exact ⟨fun _ => ⟨pos.toNat, by omega, by omega⟩, fun _ => ⟨_, rfl⟩⟩
    · rename_i h
      exact ⟨(by rintro ⟨v, hv⟩; cases hv), (by rintro ⟨i, h1, h2⟩; exact absurd ⟨by omega, by omega⟩ h)⟩

example : loadU8 [7, 8] 1 = .ok 8 ∧ loadU8 [7, 8] 2 = .ub "load outside the chunk" ∧
    loadU32 [1, 0, 0, 0, 9] 0 = .ok 1 ∧ loadU32 [1, 0, 0, 0, 9] 2 = .ub "load outside the chunk" := by decide

/-- **C15**, chunking: any number of reads from any contents, through chunks of any size and any short reads,
gives the outcomes of reading the contents at once. -/
theorem C15_parquet_chunk_independent (data : Bytes) (size : Nat) (hsize : 0 < size)
    (sched : List Nat) (n : Nat) :
    (Reader.init size data sched).readN parquetDecode n = wholeN parquetDecode n data ∧
    MemReader.readN parquetDecode n ⟨data, []⟩ = wholeN parquetDecode n data := by
  constructor
  · rw [readN_eq_wholeN parquet_laws _ _ (Reader.init_inv size hsize _ _) trivial]
    simp [Reader.total, Reader.init]
  · exact memReadN_eq_wholeN parquet_laws.empty parquet_noub n data

/-- **C15**, contents: concatenated Parquet files, none of which contains a shorter one as prefix, are returned
one by one. -/
theorem C15_parquet_files (xs : List Bytes) (h : ∀ x ∈ xs, MinimalParquet x)
    (size : Nat) (hsize : 0 < size) (sched : List Nat) (k : Nat) :
    (Reader.init size xs.flatten sched).readN parquetDecode (xs.length + k) =
      xs.map (fun x => .ok (some ⟨0, x⟩)) ++ List.replicate k (.ok none) := by
  rw [(C15_parquet_chunk_independent _ size hsize sched _).1]
  exact wholeN_parquet xs h k

-- Non-vacuity: a smallest Parquet file (metadata of nine bytes) is a `MinimalParquet`.
example : MinimalParquet ([0x50, 0x41, 0x52, 0x31] ++ [0x15, 2, 0x19, 0x2c, 0, 0, 0, 0, 0] ++ [9, 0, 0, 0]
    ++ [0x50, 0x41, 0x52, 0x31]) := by
  refine ⟨⟨[], [0x15, 2, 0x19, 0x2c, 0, 0, 0, 0, 0], by decide, by decide, by decide,
    ⟨0x15, by decide, by decide⟩, by decide⟩, ?_⟩
  intro y hy hl
  apply hy.eq_of_length
  have h1 := looks_length hl
  have h2 := hy.length_le
  simp at h2 ⊢
  omega

-- A test: that file followed by another byte, read in chunks of two bytes.
example : (Reader.init 2 ([0x50, 0x41, 0x52, 0x31, 0x15, 2, 0x19, 0x2c, 0, 0, 0, 0, 0, 9, 0, 0, 0,
    0x50, 0x41, 0x52, 0x31, 7]) []).readN parquetDecode 2 =
    [.ok (some ⟨0, [0x50, 0x41, 0x52, 0x31, 0x15, 2, 0x19, 0x2c, 0, 0, 0, 0, 0, 9, 0, 0, 0,
      0x50, 0x41, 0x52, 0x31]⟩), .err .corruptHeader] := by decide

end Mlio
