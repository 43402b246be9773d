import Verif.Proofs.Garbled
import Verif.Props.CutStores

/-!
# C75, continued: text that is not well formed
-/

namespace Mlio
open Spec

variable {V : Type}

/-- **C75**, partial: a text line reader over data stores of which one, `t`, holds a beginning of its text in UTF-16 or UTF-32 and
then bytes that are not text in that encoding: half of a surrogate pair, a number that is not that of a character, a character that
was cut; the stores behind it can be anything.  Some lines of it are read: all of those in the stores before, and a beginning of its
own lines, each of them whole.  Whatever lines, `rest`, could have followed: what is delivered is a beginning of the epoch of the
whole, never a shortened batch; the end is signalled only if none of them is selected; the only error is that of the data reader.

Missing: as for C74. -/
theorem C75_text_garbled_partial (z : Inflater) (w : World) (R : Rng) (hR : R.Lawful) (o : ReadOptions) (stores : List TextStore)
    (hg : ∀ t ∈ stores, t.Good z w) (t : TextStore) (ht : t.Garbled z w) (later : List Store)
    (hlen : ((stores ++ [t]).flatMap fun t => t.text.content).length < 2 ^ 64 - 1)
    (b : Nat) (hb : 0 < b) (l : LastHandling) (hl : l ≠ .padWarn) (P Q : Nat) (hP : 0 < P) :
    ∃ fuel0, ∀ fuel, fuel0 ≤ fuel → ∃ k, (stores.flatMap fun t => t.text.content).length ≤ k ∧ ∀ r,
      makeInstanceReader R o (textStoreCore unicodeCodec z w fuel ((stores ++ [t]).map (fun t => t.store) ++ later)) = some r →
      ∀ s : PState (batched b l r) LinesExample, Reachable P Q textLineDecode s → ∀ rest : List Bytes,
      ∃ lines, EpochOrder o (selected o (((stores ++ [t]).flatMap fun t => t.text.content).take k ++ rest)) lines ∧
        delivered s.out <+: (batches b l lines).map lineExample ∧
        (.ok none ∈ s.out → delivered s.out = (batches b l lines).map lineExample ∧
          selected o (((stores ++ [t]).flatMap fun t => t.text.content).take k ++ rest) =
            selected o (((stores ++ [t]).flatMap fun t => t.text.content).take k)) ∧
        (∀ e, .err e ∈ s.out → e = .dataReader) ∧ ∀ w, .ub w ∉ s.out := by
  obtain ⟨fuel0, h⟩ := textCore_fails stores hg t .streamError rfl (garbled_lines ht.stored (textParams false) False.elim
    (linesOk_plain (textParams false) rfl rfl (by simp [textParams]) t.text ht.valid ht.noMark).markFree
    (text_rowsOf t.text ht.valid ht.noMark)) later
  refine ⟨fuel0, fun fuel hf => ?_⟩
  obtain ⟨k, xss, hk, hx, hy⟩ := h fuel hf
  refine ⟨k, hk, fun r hm s hr rest => ?_⟩
  have hl' : xss.flatten.length < 2 ^ 64 - 1 := by rw [hx, List.length_take]; omega
  rw [← hx]
  exact text_fails R hR o _ xss hy hl' b hb l hl P Q hP r hm s hr rest

/-- **C75**, partial: the same for a CSV reader.  Missing: as for C74. -/
theorem C75_csv_garbled_partial (z : Inflater) (w : World) (R : Rng) (hR : R.Lawful) (o : ReadOptions) (p : CsvParams) (co : CsvOpts)
    (hp : Plainly p co) (stores : List CsvStore) (hg : ∀ t ∈ stores, t.Good z w p)
    (hsingle : co.singleHeader = true → ∀ h t, co.headerRow = some h → stores.head? = some t →
      co.columnNames ≠ [] ∨ h < t.table.values.length)
    (t : CsvStore) (ht : t.Garbled z w p) (later : List Store)
    (limit : FieldLimit) (warnBad : Bool) (bad : BadHandling) (cols : List (CsvCol V)) (dflt : V)
    (dec : Batch Inst → Except Err (Option (CsvExample V))) (hdec : CsvDecodes co.tok limit warnBad bad cols dflt dec)
    (hlen : (tableRows co ((stores ++ [t]).map fun t => t.table)).length < 2 ^ 64 - 1)
    (b : Nat) (hb : 0 < b) (l : LastHandling) (hl : l ≠ .padWarn) (P Q : Nat) (hP : 0 < P) :
    ∃ fuel0, ∀ fuel, fuel0 ≤ fuel → ∃ k, (tableRows co (stores.map fun t => t.table)).length ≤ k ∧ ∀ r,
      makeInstanceReader R o
        (csvStoreCore unicodeCodec z w p co none fuel ((stores ++ [t]).map (fun t => t.store) ++ later)) = some r →
      ∀ s : PState (batched b l r) (CsvExample V), Reachable P Q dec s → ∀ rest : List (List Bytes), (∀ row ∈ rest, row ≠ []) →
      ∃ rows, EpochOrder o (selected o ((tableRows co ((stores ++ [t]).map fun t => t.table)).take k ++ rest)) rows ∧
        (∀ (i : Nat) ex, (delivered s.out)[i]? = some ex →
          ∃ q, (deliverable (goodBatch co.tok.maxField limit cols) bad (batches b l rows))[i]? = some q ∧ HoldsRows co.tok.maxField limit cols q ex) ∧
        (.ok none ∈ s.out →
          (delivered s.out).length = (deliverable (goodBatch co.tok.maxField limit cols) bad (batches b l rows)).length ∧
          (bad = .error → ∀ q ∈ batches b l rows, goodBatch co.tok.maxField limit cols q = true) ∧
          selected o ((tableRows co ((stores ++ [t]).map fun t => t.table)).take k ++ rest) =
            selected o ((tableRows co ((stores ++ [t]).map fun t => t.table)).take k)) ∧
        (∀ e, .err e ∈ s.out → e = .dataReader ∨ (e = .invalidInstance ∧ bad = .error ∧
          ∃ q ∈ batches b l rows, goodBatch co.tok.maxField limit cols q = false)) ∧
        ∀ w, .ub w ∉ s.out := by
  obtain ⟨fuel0, h⟩ := csvCore_fails hp stores hg t ht.sheet .streamError rfl (by decide)
    (garbled_lines ht.stored p (crlfSafe_ok hp _) (sheet_linesOk hp ht.sheet).markFree (sheet_rowsOf hp ht.sheet)) hsingle later
  refine ⟨fuel0, fun fuel hf => ?_⟩
  obtain ⟨k, xss, hk, hx, f2, hy⟩ := h fuel hf
  refine ⟨k, hk, fun r hm s hr rest hne => ?_⟩
  have hl' : xss.flatten.length < 2 ^ 64 - 1 := by
    have := congrArg List.length hx
    rw [List.length_map, List.length_take] at this
    omega
  rw [← hx]
  exact csv_fails R hR o p co hp _ xss hy f2 limit warnBad bad cols dflt dec hdec hl' b hb l hl P Q hP r hm s hr rest hne

/-! ## Samples -/

theorem step16_encode (be : Bool) (ch : Char) (r : Bytes) : ∃ n, (codec16 be).step () (encode16 be ch ++ r) = .done n (encode8 ch) () := by
  have hv := char_valid ch
  unfold encode16
  by_cases hs : ch.toNat < 0x10000
  · rw [if_pos hs]
    obtain ⟨x, y, h1, h2⟩ := unit16_step be ch.toNat hs r
    rw [h1]
    refine ⟨2, ?_⟩
    simp only [codec16, h2]
    rw [if_pos (by omega), char_ofNat]
  · rw [if_neg hs, List.append_assoc]
    obtain ⟨z, w, g1, g2⟩ := unit16_step be (0xDC00 + (ch.toNat - 0x10000) % 0x400) (by omega) r
    rw [g1]
    obtain ⟨x, y, h1, h2⟩ := unit16_step be (0xD800 + (ch.toNat - 0x10000) / 0x400) (by omega) (z :: w :: r)
    rw [h1]
    refine ⟨4, ?_⟩
    simp only [codec16, h2, g2]
    rw [if_neg (by omega), if_neg (by omega), if_pos (by omega)]
    have : 0x10000 + (0xD800 + (ch.toNat - 0x10000) / 0x400 - 0xD800) * 0x400 +
        (0xDC00 + (ch.toNat - 0x10000) % 0x400 - 0xDC00) = ch.toNat := by omega
    rw [this, char_ofNat]

theorem noCharacter16 (be : Bool) (junk : Bytes) (h0 : junk ≠ [])
    (h : (codec16 be).step () junk = .invalid ∨ (codec16 be).step () junk = .incomplete) : NoCharacter (.utf16 be) junk := by
  refine ⟨h0, fun ch ⟨r, hr⟩ => ?_⟩
  obtain ⟨n, hn⟩ := step16_encode be ch r
  rw [show encode16 be ch ++ r = junk from hr] at hn
  rcases h with h | h <;> rw [h] at hn <;> cases hn

/-- Half of a surrogate pair in front of a letter, the other half alone, and a single byte. -/
example : NoCharacter (.utf16 false) [0, 0xD8, 65, 0] ∧ NoCharacter (.utf16 true) [0xDC, 0, 0, 65] ∧ NoCharacter (.utf16 true) [0] :=
  ⟨noCharacter16 _ _ (by decide) (Or.inl (by simp [codec16, value16])), noCharacter16 _ _ (by decide) (Or.inl (by simp [codec16, value16])),
    noCharacter16 _ _ (by decide) (Or.inr (by simp [codec16]))⟩

/-- A number that is not that of a character. -/
example : NoCharacter (.utf32 true) [0, 0x11, 0, 0] := by
  refine ⟨by decide, fun ch ⟨r, hr⟩ => ?_⟩
  have hv := char_valid ch
  simp only [Encoding.char, encode32, if_true, List.reverse_cons, List.reverse_nil, List.cons_append, List.nil_append, List.cons.injEq] at hr
  have e1 := congrArg UInt8.toNat hr.1
  have e2 := congrArg UInt8.toNat hr.2.1
  simp at e1 e2
  omega

/-- The lines `c` and `de` in UTF-16: behind the `d`, half of a surrogate pair. -/
def sampleGarbledText : TextStore :=
  ⟨⟨[([99], .lf)], [100, 101]⟩, .utf16 true, .memory [0xFE, 0xFF, 0, 99, 0, 10, 0, 100, 0xD8, 0, 0, 101] .none⟩

theorem sampleGarbledText_garbled (w : World) : sampleGarbledText.Garbled toyInflater w :=
  ⟨⟨by simp [sampleGarbledText, Plain], by simp [sampleGarbledText, Plain], by simp [sampleGarbledText, Unambiguous]⟩,
    by simp [sampleGarbledText, Text.content, utf8Bom], by simp [sampleGarbledText],
    ⟨[99, 10, 100], [0xFE, 0xFF, 0, 99, 0, 10, 0, 100], [0xD8, 0, 0, 101], ⟨_, rfl, by decide, Or.inl ⟨rfl, rfl⟩⟩,
      ⟨['c', '\n', 'd'], by decide, by decide⟩, by decide, noCharacter16 _ _ (by decide) (Or.inl (by simp [codec16, value16])), Or.inl rfl⟩,
    by decide, by simp [sampleGarbledText], Or.inr (Or.inr (by decide))⟩

/-- The header `a,b` and the row `1,2` in UTF-16: the last character was cut. -/
def sampleGarbledCsv : CsvStore :=
  ⟨⟨[(.row [⟨[97], false⟩, ⟨[98], false⟩], .lf)], .row [⟨[49], false⟩, ⟨[50], false⟩]⟩, .utf16 false,
    .memory [0xFF, 0xFE, 97, 0, 44, 0, 98, 0, 10, 0, 49, 0, 44, 0, 50] .none⟩

theorem sampleGarbledCsv_garbled (w : World) : sampleGarbledCsv.Garbled toyInflater w sampleParams := by
  refine ⟨⟨?_, ?_, Or.inr ?_, ?_, ?_, ?_, ?_, ?_, ?_, ?_⟩, ?_⟩
  all_goals try simp [sampleGarbledCsv, Sheet.rows, Sheet.all, SheetLine.fields?, SheetLine.bytes, Sheet.text, sampleParams, isRow,
      rowBytes, Field.bytes, Field.Ok, Field.NoBreak, Plain, Unambiguous, utf8Bom, escape]
  exact ⟨by simp, ⟨[97, 44, 98, 10, 49, 44], [0xFF, 0xFE, 97, 0, 44, 0, 98, 0, 10, 0, 49, 0, 44, 0], [50],
      ⟨_, rfl, by decide, Or.inl ⟨rfl, rfl⟩⟩, ⟨['a', ',', 'b', '\n', '1', ','], by decide, by decide⟩, by decide,
      noCharacter16 _ _ (by decide) (Or.inr (by simp [codec16])), Or.inl rfl⟩,
    by decide, by decide, Or.inr (Or.inr (by decide))⟩

/-- The hypotheses of `C75_text_garbled_partial` and `C75_csv_garbled_partial` are met: good stores in front of the garbled one. -/
example : (∀ t ∈ sampleTextStores, t.Good toyInflater storeWorld) ∧ sampleGarbledText.Garbled toyInflater storeWorld ∧
    (sampleTextStores ++ [sampleGarbledText]).flatMap (fun t => t.text.content) =
      [[97, 0xC3, 0xA9], [98], [99], [], [100], [99], [100, 101]] ∧
    Plainly sampleParams {} ∧ sampleGarbledCsv.Garbled toyInflater storeWorld sampleParams ∧
    tableRows {} ((sampleCsvStores ++ [sampleGarbledCsv]).map fun t => t.table) = [[[49], [50]], [[53], [54, 120]], [[49], [50]]] :=
  ⟨sampleTextStores_good, sampleGarbledText_garbled _, by decide, ⟨rfl, rfl, by decide, by decide, by decide, by decide⟩,
    sampleGarbledCsv_garbled _, by decide⟩

/-- The core reader of the model, with a good store, the garbled one, and another one: it fails when it comes to the second. -/
example : (textStoreCore unicodeCodec toyInflater storeWorld 30
      [.memory (toyZip [97, 10, 98, 10]) .gzip, sampleGarbledText.store, .memory (toyZip [99, 10]) .gzip]).outs 4 .fresh =
    [.ok (some ⟨0, 0, some [97]⟩), .ok (some ⟨0, 1, some [98]⟩), .err .dataReader, .err .dataReader] := by decide +kernel

end Mlio
