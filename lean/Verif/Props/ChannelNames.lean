import Verif.Spec.ChannelNames
import Verif.Props.Sagemaker

/-! # C48: channels that can be named in several ways -/

namespace Mlio
open Spec

theorem sm_set {l : List SmStream} {i : Nat} {st x : SmStream} {P : Bytes → Prop} (hst : l[i]? = some st) (hx : x.path = st.path)
    (h : ∀ y ∈ l, P y.path) : ∀ y ∈ l.set i x, P y.path := by
  intro y hy
  rcases List.mem_or_eq_of_mem_set hy with hy | rfl
  · exact h y hy
  · rw [hx]; exact h st (List.mem_of_getElem? hst)

theorem sm_used {l : List (Bytes × Int)} {st : SmStream} {P : Bytes → Prop} (h : ∀ u ∈ l, P u.1) (hs : P st.path) (n : Int) :
    ∀ u ∈ l ++ [(st.path, n)], P u.1 := by
  intro u hu
  rcases List.mem_append.1 hu with hu | hu
  · exact h u hu
  · simp only [List.mem_singleton] at hu; subst hu; exact hs

/-- The paths of streams and of the FIFOs that were opened are those that streams were made for. -/
theorem sm_paths (P : Bytes → Prop) (s s' : SmState) (o : SmOp) (r : Res Unit) (hs : s.step o = some (s', r))
    (ho : ∀ p f, o = .make p f → P p) (h : (∀ y ∈ s.streams, P y.path) ∧ ∀ u ∈ s.used, P u.1) :
    (∀ y ∈ s'.streams, P y.path) ∧ ∀ u ∈ s'.used, P u.1 := by
  have get : ∀ {i : Nat} {st : SmStream}, s.streams[i]? = some st → P st.path := fun hi => h.1 _ (List.mem_of_getElem? hi)
  cases o with
  | make path fifo =>
    have hp := ho path fifo rfl
    simp only [SmState.step] at hs
    split at hs
    · cases hs; exact h
    · cases hs; exact h
    · split at hs
      · cases hs; exact h
      · cases hs
        refine ⟨fun y hy => ?_, h.2⟩
        rcases List.mem_append.1 hy with hy | hy
        · exact h.1 y hy
        · simp only [List.mem_singleton] at hy; subst hy; exact hp
  | openOk i =>
    simp only [SmState.step] at hs
    split at hs
    · rename_i st hi
      split at hs
      · cases hs
        exact ⟨sm_set hi rfl h.1, sm_used h.2 (get hi) _⟩
      · cases hs
    · cases hs
  | openTimeout i =>
    simp only [SmState.step] at hs
    split at hs
    · rename_i st hi
      split at hs
      · cases hs
        exact ⟨sm_set hi rfl h.1, sm_used h.2 (get hi) _⟩
      · cases hs
    · cases hs
  | openFail i =>
    simp only [SmState.step] at hs
    split at hs
    · rename_i st hi
      split at hs
      · cases hs
        exact ⟨sm_set hi rfl h.1, h.2⟩
      · cases hs
    · cases hs
  | close i =>
    simp only [SmState.step] at hs
    split at hs
    · rename_i st hi
      split at hs
      · cases hs
        exact ⟨sm_set hi rfl h.1, h.2⟩
      · cases hs
    · cases hs
  | destroy i =>
    simp only [SmState.step] at hs
    split at hs
    · rename_i st hi
      split at hs
      · cases hs
        exact ⟨sm_set hi rfl h.1, h.2⟩
      · cases hs
    · cases hs

theorem sm_run_paths (P : Bytes → Prop) (os : List SmOp) (s : SmState) (ho : ∀ p f, SmOp.make p f ∈ os → P p)
    (h : (∀ y ∈ s.streams, P y.path) ∧ ∀ u ∈ s.used, P u.1) : (∀ y ∈ (s.run os).streams, P y.path) ∧ ∀ u ∈ (s.run os).used, P u.1 := by
  induction os generalizing s with
  | nil => exact h
  | cons o os ih =>
    have ho' : ∀ p f, SmOp.make p f ∈ os → P p := fun p f hm => ho p f (List.mem_cons_of_mem _ hm)
    simp only [SmState.run]
    split
    · rename_i s' r hs
      exact ih s' ho' (sm_paths P s s' o r hs (fun p f hm => ho p f (by simp [hm])) h)
    · exact ih s ho' h

/-- C48, partial: the same for channels, whatever paths name them, in histories in which each channel is named in one way only. -/
theorem C48_channels_partial {χ : Type} [DecidableEq χ] (channel : Bytes → χ) (os : List SmOp) (h : Careful FreshNumbers SmState.init os)
    (hn : OneNameEach channel os) :
    ExclusiveChannels channel (SmState.init.run os) ∧ ∀ c, (channelNumbers channel (SmState.init.run os) c).Pairwise (· < ·) := by
  obtain ⟨h1, h2⟩ := C48_exclusive_partial os h
  obtain ⟨h3, h4⟩ := sm_run_paths (fun p => ∃ f, SmOp.make p f ∈ os) os SmState.init (fun p f hm => ⟨f, hm⟩)
    ⟨fun y hy => (by cases hy), fun u hu => (by cases hu)⟩
  refine ⟨fun i j a b ha hb hha hhb hc => ?_, fun c => ?_⟩
  · obtain ⟨fa, hfa⟩ := h3 a (List.mem_of_getElem? ha)
    obtain ⟨fb, hfb⟩ := h3 b (List.mem_of_getElem? hb)
    exact h1 i j a b ha hb hha hhb (hn _ _ _ _ hfa hfb hc)
  · by_cases hex : ∃ u ∈ (SmState.init.run os).used, channel u.1 = c
    · obtain ⟨u, hu, rfl⟩ := hex
      obtain ⟨fu, hfu⟩ := h4 u hu
      have : channelNumbers channel (SmState.init.run os) (channel u.1) = numbersOf (SmState.init.run os) u.1 := by
        unfold channelNumbers numbersOf
        congr 1
        apply List.filter_congr
        intro w hw
        obtain ⟨fw, hfw⟩ := h4 w hw
        have : channel w.1 = channel u.1 ↔ w.1 = u.1 := ⟨hn _ _ _ _ hfw hfu, fun h => by rw [h]⟩
        simp [this]
      rw [this]
      exact h2 u.1
    · have : channelNumbers channel (SmState.init.run os) c = [] := by
        unfold channelNumbers
        rw [List.map_eq_nil_iff, List.filter_eq_nil_iff]
        intro u hu hc
        exact hex ⟨u, hu, by simpa using hc⟩
      rw [this]
      exact List.Pairwise.nil

/-- C48 fails for a channel that is named in two ways, because paths are compared byte by byte: both streams are open at the same time, and the first FIFO is
opened twice. -/
theorem C48_names_violated {χ : Type} [DecidableEq χ] (channel : Bytes → χ) (p q : Bytes) (hp : validateFilePath p = .ok ())
    (hq : validateFilePath q = .ok ()) (hpq : p ≠ q) (hc : channel p = channel q) :
    ∃ os, Careful FreshNumbers SmState.init os ∧ ¬ ExclusiveChannels channel (SmState.init.run os) ∧
      channelNumbers channel (SmState.init.run os) (channel p) = [0, 0] := by
  refine ⟨[.make p none, .openOk 0, .make q none, .openOk 1], ?_, ?_⟩
  · simp [Careful, SmState.step, SmState.init, hp, hq, FreshNumbers, hpq, Ne.symm hpq]
  · have hr : SmState.init.run [.make p none, .openOk 0, .make q none, .openOk 1] =
        ⟨(SmState.init.run [.make p none, .openOk 0, .make q none, .openOk 1]).ids, [⟨p, 1, .opened⟩, ⟨q, 1, .opened⟩], [(p, 0), (q, 0)]⟩ := by
      simp [SmState.run, SmState.step, SmState.init, hp, hq, Ne.symm hpq]
    rw [hr]
    refine ⟨fun h => ?_, by simp [channelNumbers, hc]⟩
    have := h 0 1 _ _ rfl rfl (.inr rfl) (.inr rfl) hc
    omega

/-- The channel of a path, for the example: `./` in front of it means nothing. -/
def plainName : Bytes → Bytes
  | 46 :: 47 :: p => p
  | p => p

/-- `p` and `./p` are the same channel. -/
example : ∃ os, Careful FreshNumbers SmState.init os ∧ ¬ ExclusiveChannels plainName (SmState.init.run os) ∧
    channelNumbers plainName (SmState.init.run os) [112] = [0, 0] :=
  C48_names_violated plainName [112] [46, 47, 112] (by decide) (by decide) (by decide) rfl

example : OneNameEach plainName exSm ∧ channelNumbers plainName (SmState.init.run exSm) [112] = [0, 1] := by
  refine ⟨?_, by decide⟩
  intro p q fp fq hp hq
  simp only [exSm, List.mem_cons, SmOp.make.injEq, reduceCtorEq, List.not_mem_nil, or_false, false_or] at hp hq
  rcases hp with ⟨rfl, _⟩ | ⟨rfl, _⟩ | ⟨rfl, _⟩ | ⟨rfl, _⟩ <;> rcases hq with ⟨rfl, _⟩ | ⟨rfl, _⟩ | ⟨rfl, _⟩ | ⟨rfl, _⟩ <;> decide

end Mlio
