import Verif.Proofs.DataStore
import Verif.Props.ProtoReader
import Verif.Props.Stores
import Verif.Props.Gzip

/-!
# C69: data stores deliver their contents
-/

namespace Mlio
open Spec

theorem inferCompression_named (name : Bytes) : NamedAs name (inferCompression name) := by
  obtain ⟨h1, h2, h3, h4⟩ := C52_compression name
  cases h : inferCompression name with
  | gzip => exact h1.1 h
  | bzip2 => exact h2.1 h
  | zip => exact h3.1 h
  | infer => exact absurd h h4
  | none =>
    intro stem hs
    refine ⟨fun e => ?_, fun e => ?_, fun e => ?_⟩
    · have := h1.2 ⟨stem, hs, e⟩; rw [h] at this; cases this
    · have := h2.2 ⟨stem, hs, e⟩; rw [h] at this; cases this
    · have := h3.2 ⟨stem, hs, e⟩; rw [h] at this; cases this

theorem chosen_if (name : Bytes) (c : Compression) : Chosen name c (if c = .infer then inferCompression name else c) := by
  by_cases h : c = .infer
  · rw [if_pos h]; exact Or.inr ⟨h, inferCompression_named name⟩
  · rw [if_neg h]; exact Or.inl ⟨h, rfl⟩

/-- **C69**: what the constructors of data stores give: a store with the chosen compression; an error for a path that is empty
or that of a directory, for a URI without bucket or key, and if the compression of bytes in memory is to be inferred. -/
theorem C69_construct (path uri version chunk : Bytes) (memoryMap : Bool) (c : Compression) :
    (if path = [] ∨ path.getLast? = some 47 ∨ path.getLast? = some 92 then makeFile path memoryMap c = .err .invalidArgument
      else ∃ used, Chosen path c used ∧ makeFile path memoryMap c = .ok (.file path memoryMap used)) ∧
    (makeInMemory chunk c = if c = .infer then .err .notSupported else .ok (.memory chunk c)) ∧
    ((∃ b k, IsObjectUri uri b k) → ∃ used, Chosen uri c used ∧ makeObject uri version c = .ok (.object uri version used)) ∧
    ((¬ ∃ b k, IsObjectUri uri b k) → makeObject uri version c = .err .invalidArgument) := by
  refine ⟨?_, rfl, ?_, ?_⟩
  · unfold makeFile
    rw [C52_file_path]
    by_cases h : path = [] ∨ path.getLast? = some 47 ∨ path.getLast? = some 92
    · rw [if_pos h, if_pos h]
    · rw [if_neg h, if_neg h]
      exact ⟨_, chosen_if path c, rfl⟩
  · rintro ⟨b, k, h⟩
    unfold makeObject
    rw [((C52_object_uri uri).1 b k).2 h]
    exact ⟨_, chosen_if uri c, rfl⟩
  · intro h
    unfold makeObject
    rw [(C52_object_uri uri).2 h]

/-- A gzip file by its name, one that is not, and one for which the user says so. -/
example : makeFile [97, 46, 103, 122] false .infer = .ok (.file [97, 46, 103, 122] false .gzip) ∧
    makeFile [46, 103, 122] true .infer = .ok (.file [46, 103, 122] true .none) ∧
    makeFile [97, 46, 103, 122] true .none = .ok (.file [97, 46, 103, 122] true .none) ∧
    makeObject [115, 51, 58, 47, 47, 98, 47, 107, 46, 103, 122] [] .infer =
      .ok (.object [115, 51, 58, 47, 47, 98, 47, 107, 46, 103, 122] [] .gzip) := by decide

/-- **C69**, partial: opening a data store – a file, mapped into memory or not, bytes in memory, an S3 object – gives a stream
that delivers its contents: the next bytes with each read, and nothing only at their end.  If they are compressed with
gzip, reads may ask for up to 4 GiB - 1 bytes, otherwise for up to 8 EiB - 1.

Missing: gzip files in which a block or member begins with bytes that stand for nothing up to its end, see
`C69_lost_records_violated`. -/
theorem C69_opens_partial (z : Inflater) (w : World) (st : Store) (contents : Bytes) (h : StoreHolds z w st contents) :
    ∃ s, st.openRead z w = .ok s ∧
      DeliversAll (if st.compression = .none then 2 ^ 63 - 1 else 2 ^ 32 - 1) (storeIn z) s contents := by
  obtain ⟨x, hb, hx, h⟩ := h
  obtain ⟨s, h1, h2⟩ := behind_raw hb hx
  rcases h with ⟨hc, rfl⟩ | ⟨hc, ⟨ms, hz⟩, ha⟩
  · refine ⟨.plain s, by simp only [Store.openRead, h1, hc, makeInflate], ?_⟩
    rw [if_pos hc]
    exact storeIn_plain (rawRel_supplies h2)
  · refine ⟨.inflated (GzStream.new (m := rawIn) z s), by simp only [Store.openRead, h1, hc, makeInflate], ?_⟩
    rw [if_neg (by rw [hc]; decide)]
    exact gz_raw h2 hz fun blocks hd => ha s blocks h1 hd

/-- **C69**: opening a file or an object that does not exist is an error of the system; otherwise, if it is said to be compressed
with bzip2 or zip, it is an error too; and so for bytes in memory. -/
theorem C69_errors (z : Inflater) (w : World) (st : Store) :
    ((∀ x, ¬ BytesBehind w st x) → (∀ uri v c, st = .object uri v c → ∃ b k, IsObjectUri uri b k) →
      st.openRead z w = .err .systemError) ∧
    (∀ x, BytesBehind w st x → st.compression = .bzip2 ∨ st.compression = .zip → st.openRead z w = .err .notSupported) := by
  constructor
  · intro hn hu
    cases st with
    | file path mm c =>
      cases hw : w.files path with
      | none => simp [Store.openRead, Store.raw, hw]
      | some p => exact absurd ⟨p.2, hw⟩ (hn p.1)
    | memory chunk c => exact absurd rfl (hn chunk)
    | object uri v c =>
      obtain ⟨b, k, h⟩ := hu uri v c rfl
      cases hw : w.objects b k v with
      | none => simp [Store.openRead, Store.raw, ((C52_object_uri uri).1 b k).2 h, hw]
      | some x => exact absurd ⟨b, k, h, hw⟩ (hn x)
  · intro x hb hc
    have hraw : ∃ s, st.raw w = .ok s := by
      cases st with
      | file path mm c =>
        obtain ⟨sched, h⟩ := hb
        cases mm <;> simp [Store.raw, h]
      | memory chunk c => exact ⟨_, rfl⟩
      | object uri v c =>
        obtain ⟨b, k, h1, h2⟩ := hb
        simp [Store.raw, ((C52_object_uri uri).1 b k).2 h1, h2]
    obtain ⟨s, h⟩ := hraw
    rcases hc with hc | hc <;> simp [Store.openRead, h, hc, makeInflate]

/-- **C69**, partial: a data store that holds RecordIO frames is one of those from which C68 starts, so that the reader delivers
their messages.  Missing: as for `C69_opens_partial`, and gzip files with contents of 2 GiB and more. -/
theorem C69_records_partial (z : Inflater) (w : World) (st : Store) (frames : List Frame) (hv : ∀ f ∈ frames, f.Valid)
    (h : StoreHolds z w st (recordioFile frames)) (hsize : (recordioFile frames).length < 2 ^ 31) :
    ∃ s, st.openRead z w = .ok s ∧ (⟨frames, s.opened⟩ : ProtoFile (storeIn z)).Good := by
  obtain ⟨x, hb, hx, h⟩ := h
  obtain ⟨s, h1, h2⟩ := behind_raw hb hx
  rcases h with ⟨hc, rfl⟩ | ⟨hc, ⟨ms, hz⟩, ha⟩
  · refine ⟨.plain s, by simp only [Store.openRead, h1, hc, makeInflate], hv, ?_⟩
    have hs : SuppliesTo (2 ^ 63 - 1) (storeIn z) (.plain s) (recordioFile frames) := storeIn_plain (rawRel_supplies h2)
    have hs := hs.mono (C := max (2 ^ 31) (2 * (recordioFile frames).length)) (by omega)
    cases s with
    | memory b ms =>
      obtain ⟨hl, p, hp, rfl, hd⟩ := h2
      simp only [StoreStm.opened]
      rw [hd]
      simp only [Int.toNat_natCast]
      rw [List.take_of_length_le (by simp only [List.length_drop]; omega)]
    | file b fs => exact hs
    | object b os => exact hs
  · refine ⟨.inflated (GzStream.new (m := rawIn) z s), by simp only [Store.openRead, h1, hc, makeInflate], hv, ?_⟩
    exact (gz_raw h2 hz fun blocks hd => ha s blocks h1 hd).mono
      (show max (2 ^ 31) (2 * (recordioFile frames).length) ≤ 2 ^ 32 - 1 by omega)

/-! ## Samples -/

/-- A member of the toy format with the given contents. -/
def toyZip (x : Bytes) : Bytes := 31 :: (x.flatMap fun b => [1, b]) ++ [0]

theorem toyZip_member (x : Bytes) : MemberFrom toyInflater none (toyZip x) x := by
  refine .more (z := toyInflater) none (some none) 31 _ [] x rfl ?_
  induction x with
  | nil => exact .last (z := toyInflater) (some none) 0 rfl
  | cons b x ih =>
    refine .more (z := toyInflater) (some none) (some (some 1)) 1 _ [] (b :: x) rfl ?_
    exact .more (z := toyInflater) (some (some 1)) (some none) b _ [b] x rfl ih

/-- Two frames. -/
def storeFrames : List Frame := [⟨0, [1, 7, 5], [0]⟩, ⟨0, [2, 9, 4], [0]⟩]

/-- Nothing outside of the process. -/
def emptyWorld : World := ⟨fun _ => none, fun _ _ _ => none⟩

/-- The hypotheses of `C69_opens_partial` and `C69_records_partial` hold for the frames in memory, compressed in two members. -/
example : StoreHolds toyInflater emptyWorld
    (.memory (toyZip (recordioFile [⟨0, [1, 7, 5], [0]⟩]) ++ toyZip (recordioFile [⟨0, [2, 9, 4], [0]⟩])) .gzip)
    (recordioFile storeFrames) ∧ ∀ f ∈ storeFrames, f.Valid := by
  refine ⟨⟨_, rfl, by decide, Or.inr ⟨rfl, ⟨[(toyZip (recordioFile [⟨0, [1, 7, 5], [0]⟩]), recordioFile [⟨0, [1, 7, 5], [0]⟩]), (toyZip (recordioFile [⟨0, [2, 9, 4], [0]⟩]), recordioFile [⟨0, [2, 9, 4], [0]⟩])],
    ?_, rfl, rfl⟩, ?_⟩⟩, ?_⟩
  · intro m hm
    simp only [List.mem_cons, List.not_mem_nil, or_false] at hm
    rcases hm with rfl | rfl <;> exact toyZip_member _
  · intro s blocks hs hd
    cases hs
    rw [delivers_fun hd (memory_block (by decide) (by decide))]
    exact audible_of_check (by decide)
  · intro f hf
    simp only [storeFrames, List.mem_cons, List.not_mem_nil, or_false] at hf
    rcases hf with rfl | rfl <;> exact ⟨by decide, by decide, by decide, by decide⟩

/-- A file in the file system, read three bytes at a time at first. -/
example : StoreHolds toyInflater ⟨fun p => if p = [97] then some (recordioFile storeFrames, [3, 3]) else none, fun _ _ _ => none⟩
    (.file [97] false .none) (recordioFile storeFrames) :=
  ⟨_, ⟨[3, 3], rfl⟩, by decide, Or.inl ⟨rfl, rfl⟩⟩

/-- **C69** fails for gzip files with an empty member between others: the records that follow it are lost, without any error. -/
theorem C69_lost_records_violated : ∃ (st : Store) (x : Bytes) (ms : List (Bytes × Bytes)) (s : StoreStm toyInflater),
    BytesBehind emptyWorld st x ∧ st.compression = .gzip ∧ GzFile toyInflater ms x (recordioFile storeFrames) ∧
    (∀ f ∈ storeFrames, f.Valid) ∧ st.openRead toyInflater emptyWorld = .ok s ∧
    (recMachine (storeIn toyInflater) recordioDecode 100).outs 3 s.opened.reader =
      [.ok (some ⟨0, [1, 7, 5]⟩), .ok none, .ok none] := by
  refine ⟨.memory (toyZip (recordioFile [⟨0, [1, 7, 5], [0]⟩]) ++ (toyZip [] ++ toyZip (recordioFile [⟨0, [2, 9, 4], [0]⟩]))) .gzip, _,
    [(toyZip (recordioFile [⟨0, [1, 7, 5], [0]⟩]), recordioFile [⟨0, [1, 7, 5], [0]⟩]), (toyZip [], []), (toyZip (recordioFile [⟨0, [2, 9, 4], [0]⟩]), recordioFile [⟨0, [2, 9, 4], [0]⟩])], _, rfl, rfl, ⟨?_, rfl, rfl⟩, ?_,
    rfl, ?_⟩
  · intro m hm
    simp only [List.mem_cons, List.not_mem_nil, or_false] at hm
    rcases hm with rfl | rfl | rfl <;> exact toyZip_member _
  · intro f hf
    simp only [storeFrames, List.mem_cons, List.not_mem_nil, or_false] at hf
    rcases hf with rfl | rfl <;> exact ⟨by decide, by decide, by decide, by decide⟩
  · decide +kernel

end Mlio
