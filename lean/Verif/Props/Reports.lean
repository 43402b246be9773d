import Verif.Proofs.Reports
import Verif.Props.Protobuf
import Verif.Props.Image

/-!
# C91: a bad instance is reported as what it is
-/

namespace Mlio
open Spec

variable {V : Type}

/-! ## RecordIO-protobuf -/

/-- C91: the messages about a batch of the RecordIO-protobuf reader.  There is something to say about an instance exactly if it is bad.  If
`warn_bad_instances` is set this is logged, with the data store and the number of the instance, once for each bad instance, or only for the first if
bad instances are not padded.  A message about the example follows if the user wants one: that it was skipped, or that it was padded and because of how
many bad instances.  What is said about an instance is true, unless it is about sparseness.

Partial: for examples that are decoded one instance after the other, for instances without name clashes (as C41), and about sparseness the opposite is
said (`C91_sparseness_violated`). -/
theorem C91_proto_partial (parse : Bytes → Option (PRecord V)) (zero : V) (warn : Bool) (h : BadHandling) (s : Schema) (hs : SchemaOk s)
    (q : Batch Inst) (hb : BatchOk s q.size (q.instances.map fun i => parse (i.bits.getD []))) :
    ∃ said : Inst → Option ProtoFault,
      (∀ i ∈ q.instances, (said i).isSome ↔ IsBad s (parse (i.bits.getD []))) ∧
      (∀ i ∈ q.instances, ∀ f, said i = some f → f.aboutSparseness = false → Truthful s (parse (i.bits.getD [])) f) ∧
      protoLogs parse zero warn h s q =
        instReports warn said (examined h (fun i => (said i).isSome) q.instances) ++
        batchReport h q.index (q.instances.filter fun i => (said i).isSome).length := by
  refine ⟨fun i => recordFault s (parse (i.bits.getD [])), ?_, ?_,
    protoLogs_eq parse zero warn h s hs q (by simpa using hb.fits) hb.alloc⟩
  · intro i hi
    have hc := hb.names _ (List.mem_map.2 ⟨i, hi, rfl⟩)
    simp only
    generalize hr : parse (i.bits.getD []) = r at hc
    cases r with
    | none => exact ⟨fun _ x hx => (by cases hx), fun _ => rfl⟩
    | some x =>
      have hx := (C41_accepted_iff_partial true s hs x (hc x rfl)).1
      rcases recordFault_run hs (some x) with ⟨e, k⟩ | ⟨f, e, k⟩
      · simp only [e]
        exact ⟨fun h => (by cases h), fun hbad => absurd (hx.1 (k true)) (hbad x rfl)⟩
      · simp only [e]
        refine ⟨fun _ y hy hcf => ?_, fun _ => rfl⟩
        cases hy
        have := hx.2 hcf
        rw [k true] at this
        cases this
  · intro i hi f hf hsp
    rcases recordFault_cases hf with ⟨hr, rfl⟩ | ⟨x, hr, ⟨n, v, hm, hff⟩ | ⟨hl, rfl⟩⟩
    · exact hr
    · rw [hr]
      exact featureFault_true hs x n v hm f hff hsp
    · rw [hr]
      exact ⟨hl, rfl, x, rfl, rfl⟩

/-- A parser for the examples: the first byte chooses the instance. -/
def exParse : Bytes → Option (PRecord Nat)
  | 0 :: _ => some (exRecord 1 [7, 8] [5, 1])
  | 1 :: _ => some (exRecord 1 [7, 8] [5])
  | 2 :: _ => some ⟨[([121], .tensor .float32 ⟨[1], [], []⟩)], [([120], .tensor .float32 ⟨[1, 2, 3, 4, 5, 6], [], [2, 3]⟩)]⟩
  | _ => none

example : BatchOk exSchema 4 (([⟨7, 10, some [0]⟩, ⟨7, 11, some [1]⟩, ⟨8, 0, some [9]⟩] : List Inst).map fun i => exParse (i.bits.getD [])) := by
  refine ⟨by decide, by decide, ?_⟩
  intro r hr x hx
  subst hx
  simp only [List.map_cons, List.map_nil, List.mem_cons, List.not_mem_nil, or_false, Option.getD_some, exParse] at hr
  rcases hr with hr | hr | hr <;> cases hr <;> (unfold NoClash; decide)

/-- One good instance and two bad ones. -/
example : protoLogs exParse 0 true .padWarn exSchema ⟨3, [⟨7, 10, some [0]⟩, ⟨7, 11, some [1]⟩, ⟨8, 0, some [9]⟩], 4⟩ =
    [.inst 7 11 (.keys [120] 1 2), .inst 8 0 .corrupt, .padded 3 2] := by decide +kernel

example : protoLogs exParse 0 true .skipWarn exSchema ⟨3, [⟨7, 10, some [0]⟩, ⟨7, 11, some [1]⟩, ⟨8, 0, some [9]⟩], 4⟩ =
    [.inst 7 11 (.keys [120] 1 2), .skipped 3] := by decide +kernel

/-- C91 fails for sparseness: whenever a message is about this, the opposite of what it says is true. -/
theorem C91_sparseness_violated :
    (∀ (s : Schema) (r : PRecord V) (f : ProtoFault), SchemaOk s → NoClash r → recordFault s (some r) = some f → f.aboutSparseness = true →
      ¬ Truthful s (some r) f) ∧
    protoLogs exParse 0 true .skip exSchema ⟨0, [⟨7, 10, some [2]⟩], 1⟩ = [.inst 7 10 (.sparseNotDense [120])] := by
  refine ⟨?_, by decide +kernel⟩
  intro s r f hs hc hf hsp ht
  have huniq : ∀ n v w, (n, v) ∈ r.entries → (n, w) ∈ r.entries → v = w := by
    intro n v w hv hw
    have key : ∀ es : List (Bytes × PValue V), (es.map Prod.fst).Nodup → (n, v) ∈ es → (n, w) ∈ es → v = w := by
      intro es
      induction es with
      | nil => intro _ h; simp at h
      | cons e es ih =>
        intro hn h1 h2
        simp only [List.map_cons, List.nodup_cons] at hn
        simp only [List.mem_cons] at h1 h2
        rcases h1 with h1 | h1 <;> rcases h2 with h2 | h2
        · rw [← h1] at h2; cases h2; rfl
        · exact absurd (List.mem_map.2 ⟨_, h2, by rw [← h1]⟩) hn.1
        · exact absurd (List.mem_map.2 ⟨_, h1, by rw [← h2]⟩) hn.1
        · exact ih hn.2 h1 h2
    exact key r.entries hc hv hw
  rcases recordFault_cases hf with ⟨hr, rfl⟩ | ⟨x, hr, ⟨n, v, hm, hff⟩ | ⟨hl, rfl⟩⟩
  · cases hr
  · cases hr
    obtain ⟨dt, t, a, rfl, ha, hcase⟩ := featureFault_sparse hs n v f hff hsp
    rcases hcase with ⟨rfl, h1, h2⟩ | ⟨rfl, h1, h2⟩
    · obtain ⟨dt', t', a', ⟨y, hy, hm'⟩, ha', h3, h4⟩ := ht
      cases hy
      have := huniq n _ _ hm hm'
      cases this
      exact h2 h3
    · obtain ⟨dt', t', a', ⟨y, hy, hm'⟩, ha', h3, h4⟩ := ht
      cases hy
      have := huniq n _ _ hm hm'
      cases this
      exact h3 h2
  · cases hsp

/-! ## Images -/

/-- C91: the messages about a batch of the image reader, in the same way.  What is said about an instance is that it cannot be decoded, or that the
image is too small, with its size and the one that is wanted.

Partial: for supported images (see `C91_resize_violated` and C56). -/
theorem C91_image_partial (cv : Cv) (hcv : CvOk cv) (p : ImgParams) (q : Batch Inst)
    (hs : Supported cv p (q.instances.map fun i => i.bits.getD [])) (hfit : q.instances.length ≤ q.size) :
    ∃ said : Inst → Option ImgFault,
      (∀ i ∈ q.instances, (said i).isSome ↔ ¬ GoodImage cv p (i.bits.getD [])) ∧
      (∀ i ∈ q.instances, ∀ f, said i = some f → ImageWrong cv p (i.bits.getD []) f) ∧
      imageLogs cv p q =
        instReports p.warn said (examined p.bad (fun i => (said i).isSome) q.instances) ++
        batchReport p.bad q.index (q.instances.filter fun i => (said i).isSome).length := by
  refine ⟨fun i => imageFault cv p (i.bits.getD []), ?_, ?_, imageLogs_eq cv hcv p q hs hfit⟩
  · intro i hi
    obtain ⟨f1, f2⟩ := imageFault_spec cv hcv p _ hs (i.bits.getD []) (List.mem_map.2 ⟨i, hi, rfl⟩)
    simp only
    constructor
    · intro h hg
      rw [f1 hg] at h
      cases h
    · intro h
      obtain ⟨f, e, _⟩ := f2 h
      rw [e]
      rfl
  · intro i hi f hf
    simp only at hf
    obtain ⟨f1, f2⟩ := imageFault_spec cv hcv p _ hs (i.bits.getD []) (List.mem_map.2 ⟨i, hi, rfl⟩)
    by_cases hg : GoodImage cv p (i.bits.getD [])
    · rw [f1 hg] at hf
      cases hf
    · obtain ⟨g, e, hw⟩ := f2 hg
      rw [hf] at e
      cases e
      exact hw

/-- An image, bytes that are none, and an image that is too small. -/
example : imageLogs exCv { channels := 1, height := 2, width := 1, bad := .padWarn, warn := true }
    ⟨5, [⟨0, 0, some [3, 7]⟩, ⟨0, 1, some [0]⟩, ⟨1, 0, some [1, 9]⟩], 4⟩ =
    [.inst 0 1 .decode, .inst 1 0 (.small 1 1 2 1), .padded 5 2] := by decide +kernel

example : Supported exCv { channels := 1, height := 2, width := 1, bad := .padWarn, warn := true }
    (([⟨0, 0, some [3, 7]⟩, ⟨0, 1, some [0]⟩, ⟨1, 0, some [1, 9]⟩] : List Inst).map fun i => i.bits.getD []) :=
  ⟨Or.inl rfl, by decide, by decide, fun h => (by cases h), fun h => (by cases h), fun _ _ _ _ => ⟨fun h => (by cases h), fun v h => (by cases h)⟩⟩

/-- C91 fails, and so do C56 and C65, if the image cannot be resized: for an edge length that is zero or becomes negative OpenCV throws, the message about this
cannot be made since its format does not suit its arguments, and this is the error that the user gets.  Nothing is logged, and nothing is
skipped or padded, whatever the user wants. -/
theorem C91_resize_violated (cv : Cv) (hthrow : ∀ img w h, w ≤ 0 ∨ h ≤ 0 → cv.resize img w h = none) (p : ImgParams)
    (hch : p.channels = 1 ∨ p.channels = 3) (hrec : p.recordio = false) (v : Nat) (hv : p.resize = some v) (hi : toInt32 v ≤ 0)
    (hw : p.warn = true ∨ p.bad = .error) (inst : Bytes) (img : Img) (hd : cv.imdecode (modeFor p.channels) inst = some img)
    (hr : 0 < img.rows) (hc : 0 < img.cols) (hfit : -2 ^ 31 ≤ toInt32 v * (max img.rows img.cols : Nat)) :
    decodeCore cv p inst = .err .formatError ∧ imageFault cv p inst = none := by
  have hm : modeFor p.channels ≠ .unchanged := by rcases hch with h | h <;> rw [h] <;> decide
  have hle : toInt32 v * (max img.rows img.cols : Nat) ≤ 0 := Int.mul_nonpos_of_nonpos_of_nonneg hi (Int.natCast_nonneg _)
  obtain ⟨⟨w, h⟩, ht⟩ := (C56_defined_partial (toInt32 v) img.rows img.cols hr hc).2 ⟨hfit, by omega⟩
  have hneg : w ≤ 0 ∨ h ≤ 0 := by
    unfold resizeTarget intRes at ht
    split at ht
    · split at ht
      · split at ht
        · cases ht
        · cases ht; exact Or.inl hi
      · cases ht
      · cases ht
    · split at ht
      · split at ht
        · cases ht
        · cases ht; exact Or.inr hi
      · cases ht
      · cases ht
  have hstep : resizeStep cv p img = .err .formatError := by
    unfold resizeStep resizeImage
    rw [hv]
    simp only [ht]
    rw [hthrow img w h hneg]
    simp only
    rw [if_pos hw]
  have hn : ¬ (modeFor p.channels = CvMode.unchanged ∧ img.chans ≠ 4) := fun hx => hm hx.1
  have hdm : decodeMode cv p (modeFor p.channels) inst = .err .formatError := by
    unfold decodeMode decodeImage
    rw [hd]
    simp only
    rw [if_neg hn]
    simp only [Res.andThen, hstep]
  have hfm : modeFault cv p (modeFor p.channels) inst = none := by
    unfold modeFault
    rw [hd]
    simp only
    rw [if_neg hn, hstep]
  have hn24 : ¬ (p.recordio = true ∧ inst.length < 24) := fun hx => by rw [hrec] at hx; exact absurd hx.1 (by simp)
  constructor
  · rw [← hdm]
    unfold decodeCore decodeBits
    rcases hch with h | h
    · simp [h, hrec, modeFor, toInt32]
    · simp [h, hrec, modeFor, toInt32]
  · rw [← hfm]
    unfold imageFault
    rcases hch with h | h
    · simp [h, hrec, modeFor, toInt32]
    · simp [h, hrec, modeFor, toInt32]

/-- Here bad instances are to be padded. -/
example : decodeCore exCv { channels := 1, height := 2, width := 1, resize := some 0, bad := .padWarn, warn := true } [3, 7] = .err .formatError ∧
    imageLogs exCv { channels := 1, height := 2, width := 1, resize := some 0, bad := .padWarn, warn := true } ⟨5, [⟨0, 0, some [3, 7]⟩], 1⟩ = [] ∧
    ∀ img w h, w ≤ 0 ∨ h ≤ 0 → exCv.resize img w h = none := by
  refine ⟨by decide +kernel, by decide +kernel, ?_⟩
  intro img w h hx
  exact if_neg (by omega)

end Mlio
