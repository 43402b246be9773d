import Verif.Spec.RetryStores
import Verif.Proofs.Garbled
import Verif.Props.Retry
import Verif.Props.CutStores
import Verif.Props.Garbled

/-!
# C103: reading again after an error, over data stores
-/

namespace Mlio
open Spec

/-- A reader that returns records and then always the same is steady. -/
theorem yields_sticky {α : Type} {m : Machine α} {s : m.σ} {xs : List α} {t : Res (Option α)} (h : m.Yields s xs t) :
    (∀ e, Sticky m s e) ∧ StaysAtEnd m s := by
  have key : ∀ (t' : Res (Option α)), (∀ x, t' ≠ .ok (some x)) → ∀ i j, i ≤ j → (m.outs (j + 1) s)[i]? = some t' →
      (m.outs (j + 1) s)[j]? = some t' := by
    intro t' ht' i j hij hi
    rw [h (j + 1)] at hi ⊢
    rw [List.getElem?_take_of_lt (by omega)] at hi ⊢
    by_cases hx : i < xs.length
    · rw [List.getElem?_append_left (by simpa using hx), List.getElem?_map, List.getElem?_eq_getElem hx] at hi
      simp only [Option.map_some, Option.some.injEq] at hi
      exact absurd hi.symm (ht' _)
    · rw [List.getElem?_append_right (by simp; omega), List.getElem?_replicate, if_pos (by simp; omega)] at hi ⊢
      exact hi
  exact ⟨fun e => key _ (fun x hx => by cases hx), key _ (fun x hx => by cases hx)⟩

theorem anyText_yields {z : Inflater} {w : World} {t : TextStore} (h : AnyTextStore z w t) :
    ∃ fuel0, ∀ fuel, fuel0 ≤ fuel → ∀ r, Store.openWith z w (lineStore unicodeCodec (storeSrc z) fuel none) t.store = .ok (some r) →
      ∃ xs t', (lineMachine unicodeCodec (storeSrc z) (csvDecode (textParams false)) fuel).Yields r xs t' := by
  have fails : ∀ {e : Err}, LinesFail z w t.store (textParams false) t.text.content e → ∃ fuel0, ∀ fuel, fuel0 ≤ fuel → ∀ r,
      Store.openWith z w (lineStore unicodeCodec (storeSrc z) fuel none) t.store = .ok (some r) →
      ∃ xs t', (lineMachine unicodeCodec (storeSrc z) (csvDecode (textParams false)) fuel).Yields r xs t' := by
    intro e ⟨s, fuel0, h1, h2⟩
    refine ⟨fuel0, fun fuel hf r hr => ?_⟩
    simp only [Store.openWith, h1, lineStore] at hr
    rcases h2 fuel hf with h3 | ⟨r', k, h3, _, h4⟩
    · rw [h3] at hr; cases hr
    · rw [h3] at hr; cases hr; exact ⟨_, _, h4⟩
  rcases h with h | h | h | h
  · obtain ⟨f, e1, _, e2⟩ := store_stored h.stored
    refine ⟨t.text.bytes.length + f.bytes.length + 5, fun fuel hf r hr => ?_⟩
    obtain ⟨r', h1, h2⟩ := stored_rows e2 (textParams false) False.elim
      (linesOk_plain (textParams false) rfl rfl (by simp [textParams]) t.text h.valid h.noMark).markFree
      (text_rowsOf t.text h.valid h.noMark) fuel (by omega) (by omega)
    simp only [Store.openWith, e1, lineStore, h1] at hr
    cases hr
    exact ⟨_, _, h2⟩
  · exact fails (cut_lines h.stored (textParams false) False.elim
      (linesOk_plain (textParams false) rfl rfl (by simp [textParams]) t.text h.valid h.noMark).markFree
      (text_rowsOf t.text h.valid h.noMark))
  · exact fails (garbled_lines h.stored (textParams false) False.elim
      (linesOk_plain (textParams false) rfl rfl (by simp [textParams]) t.text h.valid h.noMark).markFree
      (text_rowsOf t.text h.valid h.noMark))
  · obtain ⟨e, _, hopen⟩ := cannotOpen_err (z := z) h
    exact ⟨0, fun fuel _ r hr => nomatch (hopen _).symm.trans hr⟩

theorem anyProto_yields {z : Inflater} {w : World} {t : ProtoStore} (h : AnyProtoStore z w t) :
    ∃ fuel0, ∀ fuel, fuel0 ≤ fuel → ∀ r : RecReader (storeIn z),
      Store.openWith z w (fun s => .ok (some s.opened.reader)) t.store = .ok (some r) →
      ∃ xs t', (recMachine (storeIn z) recordioDecode fuel).Yields r xs t' := by
  rcases h with h | h | ⟨h, _⟩ | ⟨hv, junk, hj, hd, hh, hsz⟩
  · obtain ⟨s, e1, e2⟩ := C69_records_partial z w t.store t.frames h.valid h.holds h.size
    refine ⟨(recordioFile t.frames).length + 2, fun fuel hf r hr => ?_⟩
    simp only [Store.openWith, e1] at hr
    cases hr
    exact ⟨_, _, protoFile_yields ⟨t.frames, s.opened⟩ e2 fuel hf⟩
  · obtain ⟨s, fuel0, h1, h2⟩ := cut_frames h
    refine ⟨fuel0, fun fuel hf r hr => ?_⟩
    obtain ⟨k, _, hk⟩ := h2 fuel hf
    simp only [Store.openWith, h1] at hr
    cases hr
    exact ⟨_, _, hk⟩
  · obtain ⟨e, _, hopen⟩ := cannotOpen_err (z := z) h
    exact ⟨0, fun fuel _ r hr => nomatch (hopen _).symm.trans hr⟩
  · obtain ⟨s, h1, h2⟩ := store_supplies hh hsz
    refine ⟨t.frames.length + (recordioFile t.frames ++ junk).length + 2, fun fuel hf r hr => ?_⟩
    simp only [Store.openWith, h1] at hr
    cases hr
    exact ⟨_, _, damaged_yields t.frames hv junk hj hd s.opened h2 fuel (by omega)⟩

/-- A bound that serves all elements. -/
theorem all_fuel {α : Type} {P : α → Nat → Prop} : ∀ (l : List α), (∀ a ∈ l, ∃ f0, ∀ f, f0 ≤ f → P a f) →
    ∃ f0, ∀ f, f0 ≤ f → ∀ a ∈ l, P a f
  | [], _ => ⟨0, fun _ _ a ha => by cases ha⟩
  | a :: l, h => by
    obtain ⟨f1, h1⟩ := h a (by simp)
    obtain ⟨f2, h2⟩ := all_fuel l (fun b hb => h b (by simp [hb]))
    refine ⟨f1 + f2, fun f hf b hb => ?_⟩
    rcases List.mem_cons.1 hb with rfl | hb
    · exact h1 f (by omega)
    · exact h2 f (by omega) b hb

theorem text_stores_steady {z : Inflater} {w : World} (stores : List TextStore) (hg : ∀ t ∈ stores, AnyTextStore z w t) :
    ∃ fuel0, ∀ fuel, fuel0 ≤ fuel → ∀ r,
      .ok (some r) ∈ (stores.map fun t => t.store).map (Store.openWith z w (lineStore unicodeCodec (storeSrc z) fuel none)) →
      (∀ e, Sticky (lineMachine unicodeCodec (storeSrc z) (csvDecode (textParams false)) fuel) r e) ∧
        StaysAtEnd (lineMachine unicodeCodec (storeSrc z) (csvDecode (textParams false)) fuel) r := by
  obtain ⟨f0, hf0⟩ := all_fuel stores (fun t ht => anyText_yields (hg t ht))
  refine ⟨f0, fun fuel hf r hr => ?_⟩
  rw [List.map_map] at hr
  obtain ⟨t, ht, e⟩ := List.mem_map.1 hr
  obtain ⟨xs, t', hy⟩ := hf0 fuel hf t ht r e
  exact yields_sticky hy

theorem proto_stores_steady {z : Inflater} {w : World} (stores : List ProtoStore) (hg : ∀ t ∈ stores, AnyProtoStore z w t) :
    ∃ fuel0, ∀ fuel, fuel0 ≤ fuel → ∀ r,
      .ok (some r) ∈ (stores.map fun t => t.store).map (Store.openWith z w fun s => .ok (some s.opened.reader)) →
      (∀ e, Sticky (recMachine (storeIn z) recordioDecode fuel) r e) ∧ StaysAtEnd (recMachine (storeIn z) recordioDecode fuel) r := by
  obtain ⟨f0, hf0⟩ := all_fuel stores (fun t ht => anyProto_yields (hg t ht))
  refine ⟨f0, fun fuel hf r hr => ?_⟩
  rw [List.map_map] at hr
  obtain ⟨t, ht, e⟩ := List.mem_map.1 hr
  obtain ⟨xs, t', hy⟩ := hf0 fuel hf t ht r e
  exact yields_sticky hy

/-- **C103** for text lines in data stores, partial: whichever of the stores are in order, cut short, not well formed or cannot be opened, once reading an
instance has failed in an epoch, it fails in the same way in all the rest of the epoch; and if the first instance cannot be read, all calls of the data
reader fail.

Missing: as for `C103_instances_partial`; stores with a byte order mark in front of a line. -/
theorem C103_text_stores_partial (z : Inflater) (w : World) (stores : List TextStore) (hg : ∀ t ∈ stores, AnyTextStore z w t)
    (R : Rng) (o : ReadOptions) (hs : o.sampleRatio = none) (hn : o.toRead ≠ some 0) :
    ∃ fuel0, ∀ fuel, fuel0 ≤ fuel → ∀ r,
      makeInstanceReader R o (textStoreCore unicodeCodec z w fuel (stores.map fun t => t.store)) = some r → ∀ e, e ≠ .diverges →
      Sticky r r.init e ∧ ∀ u, Sticky r (r.reset u) e := by
  obtain ⟨f0, hf0⟩ := text_stores_steady stores hg
  refine ⟨f0, fun fuel hf r hm e he => ?_⟩
  unfold textStoreCore at hm
  rw [textDecode_fun] at hm
  exact C103_instances_partial _ _ (hf0 fuel hf) fuel R o hs hn r hm e he

/-- **C103** for the data reader of text lines in data stores, partial: as `C103_calls_partial`, over the stores of `C103_text_stores_partial`.

Missing: as there. -/
theorem C103_text_calls_partial {ε S ι : Type} (z : Inflater) (w : World) (stores : List TextStore)
    (hg : ∀ t ∈ stores, AnyTextStore z w t) (R : Rng) (o : ReadOptions) (hs : o.sampleRatio = none) (hn : o.toRead ≠ some 0) :
    ∃ fuel0, ∀ fuel, fuel0 ≤ fuel → ∀ r : Machine Inst,
      makeInstanceReader R o (textStoreCore unicodeCodec z w fuel (stores.map fun t => t.store)) = some r.base → ∀ e, e ≠ .diverges →
      (r.read r.init).1 = .err e → ∀ (b : Nat) (l : LastHandling) (P Q : Nat) (size : Inst → Nat)
      (dec : Batch Inst → Except Err (Option ε)) (infer : Infer Inst S ι) (mem : ι) (as : List WAct) (v : WState b l r ε S ι),
      wrun P Q size dec infer as (WState.init b l r mem) = some v →
      v.told = List.replicate (callsOf as) (.err e) ∧ v.d.hist = [] ∧ v.schema = none := by
  obtain ⟨f0, hf0⟩ := text_stores_steady stores hg
  refine ⟨f0, fun fuel hf r hm e he hr b l P Q size dec infer mem as v hv => ?_⟩
  unfold textStoreCore at hm
  rw [textDecode_fun] at hm
  exact C103_calls_partial _ _ (hf0 fuel hf) fuel R o hs hn r hm e he hr b l P Q size dec infer mem as v hv

/-- **C103** for RecordIO in data stores, partial: whichever of the stores are in order, cut short, damaged behind some frames or cannot be opened, once
reading an instance has failed in an epoch, it fails in the same way in all the rest of the epoch.

Missing: as for `C103_instances_partial`. -/
theorem C103_proto_stores_partial (z : Inflater) (w : World) (stores : List ProtoStore) (hg : ∀ t ∈ stores, AnyProtoStore z w t)
    (R : Rng) (o : ReadOptions) (hs : o.sampleRatio = none) (hn : o.toRead ≠ some 0) :
    ∃ fuel0, ∀ fuel, fuel0 ≤ fuel → ∀ r,
      makeInstanceReader R o (protoStoreCore z w fuel (stores.map fun t => t.store)) = some r → ∀ e, e ≠ .diverges →
      Sticky r r.init e ∧ ∀ u, Sticky r (r.reset u) e := by
  obtain ⟨f0, hf0⟩ := proto_stores_steady stores hg
  exact ⟨f0, fun fuel hf r hm e he => C103_instances_partial _ _ (hf0 fuel hf) fuel R o hs hn r hm e he⟩

/-- **C103** for the data reader of RecordIO in data stores, partial: as `C103_calls_partial`, over the stores of `C103_proto_stores_partial`.

Missing: as there. -/
theorem C103_proto_calls_partial {ε S ι : Type} (z : Inflater) (w : World) (stores : List ProtoStore)
    (hg : ∀ t ∈ stores, AnyProtoStore z w t) (R : Rng) (o : ReadOptions) (hs : o.sampleRatio = none) (hn : o.toRead ≠ some 0) :
    ∃ fuel0, ∀ fuel, fuel0 ≤ fuel → ∀ r : Machine Inst,
      makeInstanceReader R o (protoStoreCore z w fuel (stores.map fun t => t.store)) = some r.base → ∀ e, e ≠ .diverges →
      (r.read r.init).1 = .err e → ∀ (b : Nat) (l : LastHandling) (P Q : Nat) (size : Inst → Nat)
      (dec : Batch Inst → Except Err (Option ε)) (infer : Infer Inst S ι) (mem : ι) (as : List WAct) (v : WState b l r ε S ι),
      wrun P Q size dec infer as (WState.init b l r mem) = some v →
      v.told = List.replicate (callsOf as) (.err e) ∧ v.d.hist = [] ∧ v.schema = none := by
  obtain ⟨f0, hf0⟩ := proto_stores_steady stores hg
  exact ⟨f0, fun fuel hf r hm e he hr b l P Q size dec infer mem as v hv =>
    C103_calls_partial _ _ (hf0 fuel hf) fuel R o hs hn r hm e he hr b l P Q size dec infer mem as v hv⟩

/-- A store that does not exist. -/
def sampleMissingText : TextStore := ⟨⟨[], []⟩, .utf8, .file [120] true .none⟩

-- The hypotheses are met: stores in order, one that was cut, one that is not well formed and one that does not exist, in a reader of a shard.
example (fuel : Nat) : (∀ t ∈ sampleTextStores ++ [sampleCutText, sampleGarbledText, sampleMissingText], AnyTextStore toyInflater storeWorld t) ∧
    ∃ r : Machine Inst, makeInstanceReader trivialRng { numShards := 2, shardIndex := 1 }
        (textStoreCore unicodeCodec toyInflater storeWorld (fuel + 1)
          ((sampleMissingText :: sampleTextStores).map fun t => t.store)) = some r.base ∧ (r.read r.init).1 = .err .dataReader := by
  refine ⟨?_, _, rfl, ?_⟩
  · intro t ht
    simp only [List.mem_append, List.mem_cons, List.not_mem_nil, or_false] at ht
    rcases ht with h | rfl | rfl | rfl
    · exact .inl (sampleTextStores_good t h)
    · exact .inr (.inl (sampleCutText_cut _))
    · exact .inr (.inr (.inl (sampleGarbledText_garbled _)))
    · exact .inr (.inr (.inr sample_missing))
  · rfl

-- The same for RecordIO, with a store that is damaged behind its first frame.
example : ∀ t ∈ sampleProtoStores ++ [sampleCutProto, ⟨[⟨0, [1, 7, 5], [0]⟩],
      .memory (recordioFile [⟨0, [1, 7, 5], [0]⟩] ++ [0x0A, 0x23, 0xD7, 0xCE, 3, 0, 0, 0, 1]) .none⟩, ⟨[], .file [120] true .none⟩],
    AnyProtoStore toyInflater storeWorld t := by
  intro t ht
  simp only [List.mem_append, List.mem_cons, List.not_mem_nil, or_false] at ht
  rcases ht with h | rfl | rfl | rfl
  · exact .inl (sampleProtoStores_good t h)
  · exact .inr (.inl (sampleCutProto_cut _))
  · exact .inr (.inr (.inr sample_damaged))
  · exact .inr (.inr (.inl ⟨sample_missing, rfl⟩))

end Mlio
