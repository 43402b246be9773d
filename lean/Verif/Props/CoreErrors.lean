import Verif.Proofs.CoreErrors
import Verif.Props.Instances
import Verif.Props.FailingStores

/-!
# C92: a read error names the place where it is
-/

namespace Mlio
open Spec Machine

/-- C92: whatever was read before, and however often, if reading an instance fails because a record cannot be read, the message says what kind of error it
is, names the first data store that cannot be read to its end, and, if it names a record, the one that cannot be read: it is preceded by as many records
of that store as the number says.

Partial: records that were put together from parts in the wrong order are not covered, see `C92_split_violated`. -/
theorem C92_place_partial (rm : Machine Record) (stores : List (Res (Option rm.σ))) (cs : List Content) (hf : FitsAll rm stores cs) (fuel : Nat)
    (s : (coreReader rm stores fuel).σ) (hs : Occurs (coreReader rm stores fuel) s) (m : CoreMsg)
    (hm : coreError rm stores fuel s = some (m, false)) :
    ∃ k n e, FailsAt cs k n e ∧ Says e k n m := by
  obtain ⟨⟨_, h1⟩, _⟩ := readPayload_at hf fuel (sane_reached hf fuel hs)
  unfold coreError at hm
  rcases hr : readPayload rm stores fuel s with ⟨o, s'⟩
  rw [hr] at hm h1
  cases o with
  | ok _ => cases hm
  | ub _ => cases hm
  | err e =>
    simp only [Option.map_eq_some_iff, Prod.mk.injEq] at hm
    obtain ⟨m', hm, rfl, hc⟩ := hm
    rcases (h1 e rfl).1 hc with rfl | ⟨k, hk, hfa⟩
    · unfold coreMsg at hm
      split at hm <;> cases hm
    · refine ⟨k, s'.recIdx, e, hfa, ?_⟩
      unfold coreMsg at hm
      simp only at hk
      rw [hk] at hm
      cases e <;> cases hm <;> simp [Says]

/-- C92: every data reader error comes with such a message, or was raised as such by the record reader. -/
theorem C92_said (rm : Machine Record) (stores : List (Res (Option rm.σ))) (cs : List Content) (hf : FitsAll rm stores cs) (fuel : Nat)
    (s : (coreReader rm stores fuel).σ) (hs : Occurs (coreReader rm stores fuel) s)
    (he : ((coreReader rm stores fuel).read s).1 = .err .dataReader) :
    (coreError rm stores fuel s).isSome ∨ ∃ k n, FailsAt cs k n .dataReader := by
  obtain ⟨⟨_, h1⟩, _⟩ := readPayload_at hf fuel (sane_reached hf fuel hs)
  have he : (coreRead rm stores fuel s).1 = .err .dataReader := he
  unfold coreRead at he
  unfold coreError
  rcases hr : readPayload rm stores fuel s with ⟨o, s'⟩
  rw [hr] at he h1
  cases o with
  | ub w => cases he
  | ok o =>
    cases o with
    | none => simp only at he; split at he <;> cases he
    | some p => simp only at he; split at he <;> cases he
  | err e =>
    simp only [coreHandle] at he
    cases ht : e.translated with
    | true =>
      left
      rw [ht] at he
      simp only [if_true] at he
      cases hk : s'.store with
      | none => rw [hk] at he; cases he
      | some k =>
        simp only [coreMsg, hk]
        cases e <;> first | rfl | cases ht
    | false =>
      rw [ht] at he
      simp only [Bool.false_eq_true, if_false] at he
      cases he
      right
      cases hc : s'.corrupt with
      | true => have := ((h1 _ rfl).2 hc).1; cases this
      | false =>
        rcases (h1 _ rfl).1 hc with h | ⟨k, _, h⟩
        · cases h
        · exact ⟨k, _, h⟩

/-- A record reader that fails after the records it holds. -/
def breakingMachine : Machine Record where
  σ := List Record × Err
  init := ([], .corruptRecord)
  read := fun s => match s.1 with
    | [] => (.err s.2, s)
    | r :: rs => (.ok (some r), (rs, s.2))
  reset := fun s => s

/-- The second store breaks after two records: this is said at each read from the fourth on. -/
example : let stores : List (Res (Option breakingMachine.σ)) := [.ok none, .ok (some ([⟨0, [1]⟩, ⟨0, [2]⟩], .corruptFooter))]
    let c := coreReader breakingMachine stores 9
    coreError breakingMachine stores 9 c.init = none ∧
    coreError breakingMachine stores 9 (c.read (c.read (c.read c.init).2).2).2 = some (.corrupt 1 2, false) ∧
    coreError breakingMachine stores 9 (c.read (c.read (c.read (c.read c.init).2).2).2).2 = some (.corrupt 1 2, false) := by
  decide

example : FitsAll breakingMachine [.ok none, .ok (some ([⟨0, [1]⟩, ⟨0, [2]⟩], .corruptFooter))]
    [.whole, .records [⟨0, [1]⟩, ⟨0, [2]⟩] (some .corruptFooter)] := by
  have hy : ∀ rs e, breakingMachine.Yields (rs, e) rs (.err e) := by
    intro rs e
    refine yields_of (m := breakingMachine) (fun s ys => s = (ys, e)) (.err e) ?_ ?_ (rs, e) rs rfl
    · rintro s x xs rfl; exact ⟨rfl, rfl⟩
    · rintro s rfl; exact ⟨rfl, rfl⟩
  refine ⟨Or.inl rfl, ?_⟩
  intro i o c h1 h2
  match i with
  | 0 => cases h1; cases h2; trivial
  | 1 => cases h1; cases h2; exact hy _ _
  | n + 2 => simp at h1

/-- C92 for files with RecordIO frames: if the first data store that is not in order is damaged behind `frames`, the message says that record
`frames.length` of this store is corrupt, and if this store cannot be opened it is named: as one that the system cannot read if there is nothing behind it,
as one that cannot be read if its compression is not supported. -/
theorem C92_recordio_partial (z : Inflater) (w : World) (stores : List ProtoStore) (hg : ∀ t ∈ stores, t.Good z w) (broken : Store)
    (frames : List Frame) (hbad : BreaksAfter z w broken frames) (later : List Store) :
    ∃ fuel0, ∀ fuel, fuel0 ≤ fuel → ∀ s,
      Occurs (protoStoreCore z w fuel (stores.map (fun t => t.store) ++ broken :: later)) s → ∀ m,
      coreError (recMachine (storeIn z) recordioDecode fuel)
        ((stores.map (fun t => t.store) ++ broken :: later).map (Store.openWith z w fun s => .ok (some s.opened.reader))) fuel s = some (m, false) →
      (Damaged z w broken frames ∧ m = .corrupt stores.length frames.length) ∨
      (CannotOpen w broken ∧ (((∀ x, ¬ BytesBehind w broken x) ∧ m = .system stores.length) ∨
        ((∃ x, BytesBehind w broken x) ∧ m = .cannotRead stores.length))) := by
  obtain ⟨fuel0, h⟩ := protoStores_fit stores hg broken later
  have key : ∀ (c : Content) k n e, c.stops = true → FailsAt
      (((stores.map fun t => t.frames).map fun fs => Content.records (fs.map fun x => ⟨x.kind, x.payload⟩) none) ++ [c]) k n e →
      k = stores.length ∧ (c = .unreadable e ∧ n = 0 ∨ ∃ rs, c = .records rs (some e) ∧ rs.length = n) := by
    intro c k n e hc hfa
    have hlen : ((stores.map fun t => t.frames).map fun fs => Content.records (fs.map fun x => ⟨x.kind, x.payload⟩) none).length =
      stores.length := by simp
    have hstop : ∀ x, (((stores.map fun t => t.frames).map fun fs => Content.records (fs.map fun x => ⟨x.kind, x.payload⟩) none) ++
        [c])[k]? = some x → x.stops = true → k = stores.length ∧ x = c := by
      intro x hx hs
      by_cases hk : k < stores.length
      · rw [List.getElem?_append_left (by omega)] at hx
        obtain ⟨fs, _, rfl⟩ := List.mem_map.1 (List.mem_of_getElem? hx)
        cases hs
      · rw [List.getElem?_append_right (by omega)] at hx
        have hz : k - ((stores.map fun t => t.frames).map fun fs => Content.records (fs.map fun x => ⟨x.kind, x.payload⟩) none).length = 0 := by
          apply Classical.byContradiction
          intro hne
          rw [List.getElem?_eq_none (by simp only [List.length_cons, List.length_nil]; omega)] at hx
          cases hx
        rw [hz] at hx
        cases hx
        exact ⟨by omega, rfl⟩
    rcases hfa.2 with ⟨hx, hn⟩ | ⟨rs, hx, hn⟩
    · obtain ⟨h1, h2⟩ := hstop _ hx rfl
      exact ⟨h1, Or.inl ⟨h2.symm, hn⟩⟩
    · obtain ⟨h1, h2⟩ := hstop _ hx rfl
      exact ⟨h1, Or.inr ⟨rs, h2.symm, hn⟩⟩
  rcases hbad with ⟨hb, rfl⟩ | hd
  · obtain ⟨e, hwhich, hopen⟩ : ∃ e : Err, (((∀ x, ¬ BytesBehind w broken x) ∧ e = .systemError) ∨
        ((∃ x, BytesBehind w broken x) ∧ e = .notSupported)) ∧
        ∀ {α : Type} (f : StoreStm z → Res α), Store.openWith z w f broken = .err e := by
      rcases hb with ⟨h1, h2⟩ | ⟨⟨x, h1⟩, h2⟩
      · exact ⟨_, Or.inl ⟨h1, rfl⟩, fun f => by simp only [Store.openWith, (C69_errors z w broken).1 h1 h2]⟩
      · exact ⟨_, Or.inr ⟨⟨x, h1⟩, rfl⟩, fun f => by simp only [Store.openWith, (C69_errors z w broken).2 x h1 h2]⟩
    refine ⟨fuel0, fun fuel hf s hs m hm => ?_⟩
    have hfit := h fuel (.unreadable e) hf rfl (by rw [hopen]; rfl)
    obtain ⟨k, n, e', h1, h2⟩ := C92_place_partial _ _ _ hfit fuel s hs m hm
    obtain ⟨rfl, hc⟩ := key _ k n e' rfl h1
    right
    refine ⟨hb, ?_⟩
    rcases hc with ⟨hx, rfl⟩ | ⟨rs, hx, _⟩
    · cases hx
      rcases hwhich with ⟨hw, rfl⟩ | ⟨hw, rfl⟩
      · refine Or.inl ⟨hw, ?_⟩
        cases m <;> simp [Says] at h2
        rw [h2]
      · refine Or.inr ⟨hw, ?_⟩
        cases m <;> simp [Says] at h2
        rw [h2]
    · cases hx
  · obtain ⟨hv, junk, hj, hdd, hh, hsz⟩ := id hd
    obtain ⟨s0, h1, h2⟩ := store_supplies hh hsz
    refine ⟨fuel0 + (recordioFile frames ++ junk).length + 2, fun fuel hf s hs m hm => ?_⟩
    have hfit := h fuel (.records (frames.map fun x => ⟨x.kind, x.payload⟩) (some .corruptHeader)) (by omega) rfl (by
      have := damaged_yields frames hv junk hj hdd s0.opened h2 fuel (by omega)
      simp only [Store.openWith, h1]
      exact this)
    obtain ⟨k, n, e', h3, h4⟩ := C92_place_partial _ _ _ hfit fuel s hs m hm
    obtain ⟨rfl, hc⟩ := key _ k n e' rfl h3
    left
    refine ⟨hd, ?_⟩
    rcases hc with ⟨hx, _⟩ | ⟨rs, hx, rfl⟩
    · cases hx
    · cases hx
      cases m with
      | tooLarge k' n' => obtain ⟨h, _⟩ := h4; cases h
      | corrupt k' n' => obtain ⟨_, rfl, rfl⟩ := h4; simp
      | corruptData k' => obtain ⟨h, _⟩ := h4; rcases h with h | h <;> cases h
      | cannotRead k' => obtain ⟨h, _⟩ := h4; cases h
      | system k' => obtain ⟨h, _⟩ := h4; cases h

/-- The damaged store of C75 is one. -/
example : BreaksAfter toyInflater storeWorld
    (.memory (recordioFile [⟨0, [1, 7, 5], [0]⟩] ++ [0x0A, 0x23, 0xD7, 0xCE, 3, 0, 0, 0, 1]) .none) [⟨0, [1, 7, 5], [0]⟩] := Or.inr sample_damaged

/-- C92 fails if the parts of a split record are in the wrong order: the part that has no place there was counted already, so that the message names the
record behind it, or record 0 of a data store that has no records.  In the example the third record is said to be corrupt; it is the second. -/
theorem C92_split_violated :
    (∀ (rm : Machine Record) (stores : List (Res (Option rm.σ))) (cs : List Content), FitsAll rm stores cs → ∀ (fuel : Nat)
      (s : (coreReader rm stores fuel).σ), Occurs (coreReader rm stores fuel) s → ∀ m, coreError rm stores fuel s = some (m, true) →
      (∃ k rs b n r, cs[k]? = some (.records rs b) ∧ rs[n]? = some r ∧ ((r.kind ≠ 0 ∧ r.kind ≠ 1) ∨ (r.kind ≠ 2 ∧ r.kind ≠ 3)) ∧
        m = .corrupt k (n + 1)) ∨
      ∃ k, cs[k]? = some .whole ∧ m = .corrupt k 0) ∧
    ∃ stores : List (Res (Option (listMachine []).σ)), FitsAll (listMachine []) stores [.records [⟨0, [1]⟩, ⟨3, [2]⟩, ⟨0, [3]⟩] none] ∧
      coreError (listMachine []) stores 9 ((coreReader (listMachine []) stores 9).read .fresh).2 = some (.corrupt 0 2, true) := by
  refine ⟨?_, [.ok (some [⟨0, [1]⟩, ⟨3, [2]⟩, ⟨0, [3]⟩])], ⟨Or.inl rfl, ?_⟩, by decide⟩
  · intro rm stores cs hf fuel s hs m hm
    obtain ⟨⟨_, h1⟩, _⟩ := readPayload_at hf fuel (sane_reached hf fuel hs)
    unfold coreError at hm
    rcases hr : readPayload rm stores fuel s with ⟨o, s'⟩
    rw [hr] at hm h1
    cases o with
    | ok _ => cases hm
    | ub _ => cases hm
    | err e =>
      simp only [Option.map_eq_some_iff, Prod.mk.injEq] at hm
      obtain ⟨m', hm, rfl, hc⟩ := hm
      obtain ⟨rfl, hl⟩ := (h1 e rfl).2 hc
      simp only at hl
      unfold coreMsg at hm
      rcases hl with ⟨k, rs, b, n, r, h1, h2, h3, h4, h5⟩ | ⟨k, rs, b, n, r, h1, h2, h3, h4, h5⟩ | ⟨h1, h2⟩
      · rw [h1] at hm
        cases hm
        exact Or.inl ⟨k, rs, b, n, r, h2, h4, Or.inl h5, by rw [h3]⟩
      · rw [h1] at hm
        cases hm
        exact Or.inl ⟨k, rs, b, n, r, h2, h4, Or.inr h5, by rw [h3]⟩
      · cases hk : s'.store with
        | none => rw [hk] at hm; cases hm
        | some k =>
          rw [hk] at hm
          cases hm
          exact Or.inr ⟨k, h2 k hk, by rw [h1]⟩
  · intro i o c h1 h2
    match i with
    | 0 => cases h1; cases h2; exact listMachine_yields _ _
    | n + 1 => simp at h1

end Mlio
