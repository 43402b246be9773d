import Verif.Model.Sdk

/-!
# C94: clients of S3 and the AWS SDK
-/

namespace Mlio
open Spec

/-- The state that the history of calls leaves. -/
def SdkReached (m : AwsMachine) (ks : List SdkCall) (s : SdkState) : Prop := ∃ os, sdkRun m {} ks = (.ok os, s)

theorem makeClient_keys (m : AwsMachine) (w : ClientWish) (s : SdkState) (h : ¬ NoKeys w) :
    makeClient m w s = (.ok (.client (wantedClient m w)), s) := by
  have hk : (w.id.isEmpty && w.secret.isEmpty) = false := by
    unfold NoKeys at h
    cases hi : w.id <;> cases hs : w.secret <;> simp_all
  unfold makeClient wantedClient wantedKeys wantedRegion
  simp only [hk, Bool.false_eq_true, if_false, if_neg h]
  cases w.region <;> cases w.profile <;> rfl

theorem makeClient_default (m : AwsMachine) (w : ClientWish) (s : SdkState) (h : NoKeys w) :
    makeClient m w s =
      if s.chain then (.ub "null pointer", s) else (.ok (.client (wantedClient m w)), { s with chain := true }) := by
  have hk : (w.id.isEmpty && w.secret.isEmpty) = true := by simp [h.1, h.2]
  unfold makeClient wantedClient wantedKeys wantedRegion defaultKeys
  simp only [hk, if_true, if_pos h]
  cases s.chain with
  | true => rfl
  | false =>
    simp only [Bool.false_eq_true, if_false]
    cases w.region <;> cases w.profile <;> rfl

/-- The call makes a client with default keys. -/
def usesDefault : SdkCall → Bool
  | .makeClient w => decide (NoKeys w)
  | _ => false

/-- One call that succeeds. -/
theorem sdkCall_chain (m : AwsMachine) (s : SdkState) (k : SdkCall) (o : SdkOut) (s' : SdkState) (h : sdkCall m s k = (.ok o, s')) :
    s'.chain = (s.chain || usesDefault k) := by
  cases k with
  | setUp =>
    simp only [sdkCall, initializeAws, Prod.mk.injEq] at h
    rw [← h.2]
    cases s.initialized <;> simp [usesDefault]
  | tearDown =>
    simp only [sdkCall, deallocateAws, Prod.mk.injEq] at h
    rw [← h.2]
    simp [usesDefault]
  | makeClient w =>
    simp only [sdkCall] at h
    by_cases hk : NoKeys w
    · rw [makeClient_default m w s hk] at h
      cases hc : s.chain with
      | true => rw [hc] at h; simp at h
      | false =>
        rw [hc] at h
        simp only [Bool.false_eq_true, if_false, Prod.mk.injEq] at h
        rw [← h.2]
        simp [usesDefault, hk]
    · rw [makeClient_keys m w s hk] at h
      simp only [Prod.mk.injEq] at h
      rw [← h.2]
      simp [usesDefault, hk]

/-- A history with another call. -/
theorem sdkRun_cons (m : AwsMachine) (s s' : SdkState) (k : SdkCall) (ks : List SdkCall) (os : List SdkOut)
    (h : sdkRun m s (k :: ks) = (.ok os, s')) :
    ∃ o s1 os', sdkCall m s k = (.ok o, s1) ∧ sdkRun m s1 ks = (.ok os', s') ∧ os = o :: os' := by
  unfold sdkRun at h
  rcases hc : sdkCall m s k with ⟨r, s1⟩
  rw [hc] at h
  cases r with
  | ok o =>
    simp only at h
    rcases hr : sdkRun m s1 ks with ⟨r', s2⟩
    rw [hr] at h
    cases r' with
    | ok os' => simp only [Prod.mk.injEq, Res.ok.injEq] at h; exact ⟨o, s1, os', rfl, h.2 ▸ hr, h.1.symm⟩
    | err e => simp at h
    | ub w => simp at h
  | err e => simp at h
  | ub w => simp at h

theorem chain_reached (m : AwsMachine) : ∀ (ks : List SdkCall) (s s' : SdkState) (os : List SdkOut), sdkRun m s ks = (.ok os, s') →
    (s'.chain = true ↔ s.chain = true ∨ ∃ w, SdkCall.makeClient w ∈ ks ∧ NoKeys w)
  | [], s, s', os, h => by
    simp only [sdkRun, Prod.mk.injEq] at h
    rw [← h.2]; simp
  | k :: ks, s, s', os, h => by
    obtain ⟨o, s1, os', h1, h2, _⟩ := sdkRun_cons m s s' k ks os h
    rw [chain_reached m ks s1 s' os' h2, sdkCall_chain m s k o s1 h1]
    cases k with
    | setUp => simp [usesDefault]
    | tearDown => simp [usesDefault]
    | makeClient w =>
      simp only [usesDefault, Bool.or_eq_true, decide_eq_true_eq, List.mem_cons, SdkCall.makeClient.injEq]
      constructor
      · rintro ((h | h) | ⟨w', h, h'⟩)
        · exact Or.inl h
        · exact Or.inr ⟨w, Or.inl rfl, h⟩
        · exact Or.inr ⟨w', Or.inr h, h'⟩
      · rintro (h | ⟨w', rfl | h, h'⟩)
        · exact Or.inl (Or.inl h)
        · exact Or.inl (Or.inr h')
        · exact Or.inr ⟨w', h, h'⟩

/-- **C94**, partial: after every history of calls, a client can be made and has the keys, the region and the scheme that were asked for, or else those
of the profile or the machine.

Partial: the client has keys of its own, or it is the first one without; see `C94_second_violated`. -/
theorem C94_client_partial (m : AwsMachine) (ks : List SdkCall) (s : SdkState) (h : SdkReached m ks s) (w : ClientWish)
    (hw : NoKeys w → ∀ v, SdkCall.makeClient v ∈ ks → ¬ NoKeys v) :
    (makeClient m w s).1 = .ok (.client (wantedClient m w)) := by
  by_cases hk : NoKeys w
  · rw [makeClient_default m w s hk]
    obtain ⟨os, h⟩ := h
    have hc : ¬ s.chain = true := by
      rw [chain_reached m ks {} s os h]
      rintro (h' | ⟨v, hv, hv'⟩)
      · cases h'
      · exact hw hk v hv hv'
    rw [if_neg hc]
  · rw [makeClient_keys m w s hk]

/-- **C94 is violated**: in a process that has made a client with the default keys, making another such client reads through a null pointer, whatever
came before and in between, and also if the SDK has been deallocated and initialized again. -/
theorem C94_second_violated (m : AwsMachine) (ks : List SdkCall) (s : SdkState) (h : SdkReached m ks s) (v w : ClientWish)
    (hv : SdkCall.makeClient v ∈ ks) (hv' : NoKeys v) (hw : NoKeys w) : ∃ u, (makeClient m w s).1 = .ub u := by
  obtain ⟨os, h⟩ := h
  have hc : s.chain = true := (chain_reached m ks {} s os h).2 (Or.inr ⟨v, hv, hv'⟩)
  rw [makeClient_default m w s hw, if_pos hc]
  exact ⟨_, rfl⟩

/-- A machine. -/
def exMachine : AwsMachine := ⟨⟨[1], [2], []⟩, [9], fun _ => [8]⟩

/-- A client with keys, one with default keys in the region of a profile, then keys again. -/
example : (sdkRun exMachine {} [.setUp, .makeClient { id := [5], secret := [6], region := [7] }, .makeClient { profile := [4] },
      .makeClient { id := [5], https := false }]).1 =
    .ok [.done, .client ⟨⟨[5], [6], []⟩, [7], true⟩, .client ⟨⟨[1], [2], []⟩, [8], true⟩, .client ⟨⟨[5], [], []⟩, [9], false⟩] := by
  decide +kernel

/-- Initialized anew, and still no second client. -/
example : (sdkRun exMachine {} [.setUp, .makeClient {}, .tearDown, .setUp, .makeClient {}]).1 = .ub "null pointer" := by
  decide +kernel

theorem alternating_push (l : List NativeCall) (c : NativeCall) (h : Alternating l) (hc : c = if l.length % 2 = 0 then .start else .stop) :
    Alternating (l ++ [c]) := by
  intro i d hd
  by_cases hi : i < l.length
  · rw [List.getElem?_append_left hi] at hd
    exact h i d hd
  · rw [List.getElem?_append_right (by omega)] at hd
    cases hk : i - l.length with
    | zero =>
      rw [hk] at hd
      simp only [List.getElem?_cons_zero, Option.some.injEq] at hd
      rw [← hd, hc, show i = l.length from by omega]
    | succ n => rw [hk] at hd; simp at hd

/-- The flag says whether the library runs. -/
def SdkSane (s : SdkState) : Prop := Alternating s.native ∧ s.initialized = decide (s.native.length % 2 = 1)

theorem sdkCall_sane (m : AwsMachine) (s s' : SdkState) (k : SdkCall) (r : Res SdkOut) (h : SdkSane s) (hk : sdkCall m s k = (r, s')) :
    SdkSane s' := by
  obtain ⟨h1, h2⟩ := h
  cases k with
  | setUp =>
    simp only [sdkCall, initializeAws, Prod.mk.injEq] at hk
    rw [← hk.2]
    cases hi : s.initialized with
    | true => simp only [if_true]; exact ⟨h1, h2⟩
    | false =>
      rw [hi] at h2
      have hl : s.native.length % 2 = 0 := by have := of_decide_eq_false h2.symm; omega
      simp only [Bool.false_eq_true, if_false]
      refine ⟨alternating_push _ _ h1 (by rw [if_pos hl]), ?_⟩
      simp only [List.length_append, List.length_cons, List.length_nil]
      rw [eq_comm, decide_eq_true_eq]; omega
  | tearDown =>
    simp only [sdkCall, deallocateAws, Prod.mk.injEq] at hk
    rw [← hk.2]
    cases hi : s.initialized with
    | true =>
      rw [hi] at h2
      have hl : s.native.length % 2 = 1 := of_decide_eq_true h2.symm
      simp only [if_true]
      refine ⟨alternating_push _ _ h1 (by rw [if_neg (by omega)]), ?_⟩
      simp only [List.length_append, List.length_cons, List.length_nil]
      rw [eq_comm, decide_eq_false_iff_not]; omega
    | false =>
      simp only [Bool.false_eq_true, if_false]
      exact ⟨h1, by rw [hi] at h2; exact h2⟩
  | makeClient w =>
    simp only [sdkCall] at hk
    by_cases hn : NoKeys w
    · rw [makeClient_default m w s hn] at hk
      cases hc : s.chain with
      | true => rw [hc] at hk; simp only [if_true, Prod.mk.injEq] at hk; rw [← hk.2]; exact ⟨h1, h2⟩
      | false => rw [hc] at hk; simp only [Bool.false_eq_true, if_false, Prod.mk.injEq] at hk; rw [← hk.2]; exact ⟨h1, h2⟩
    · rw [makeClient_keys m w s hn] at hk
      simp only [Prod.mk.injEq] at hk
      rw [← hk.2]; exact ⟨h1, h2⟩

theorem sane_run (m : AwsMachine) : ∀ (ks : List SdkCall) (s s' : SdkState) (os : List SdkOut), SdkSane s → sdkRun m s ks = (.ok os, s') → SdkSane s'
  | [], s, s', os, hs, h => by
    simp only [sdkRun, Prod.mk.injEq] at h
    rw [← h.2]; exact hs
  | k :: ks, s, s', os, hs, h => by
    obtain ⟨o, s1, os', h1, h2, _⟩ := sdkRun_cons m s s' k ks os h
    exact sane_run m ks s1 s' os' (sdkCall_sane m s s1 k _ hs h1) h2

/-- **C94**, partial: in every history the native library is started only when it is not running and stopped only when it is, and initializing it gives
a warning exactly if it is running, and then does nothing.

Partial: the calls come one after the other, see `C94_threads_violated`. -/
theorem C94_balanced_partial (m : AwsMachine) (ks : List SdkCall) (s : SdkState) (h : SdkReached m ks s) :
    Alternating s.native ∧
    (s.native.getLast? = some .start → sdkCall m s .setUp = (.ok .warned, s)) ∧
    (s.native.getLast? ≠ some .start → (sdkCall m s .setUp).1 = .ok .done ∧ (sdkCall m s .setUp).2.native = s.native ++ [.start]) ∧
    (s.native.getLast? = some .start → (sdkCall m s .tearDown).2.native = s.native ++ [.stop]) ∧
    (s.native.getLast? ≠ some .start → (sdkCall m s .tearDown).2.native = s.native) := by
  obtain ⟨os, h⟩ := h
  obtain ⟨h1, h2⟩ := sane_run m ks {} s os ⟨fun i c hc => by simp at hc, by simp⟩ h
  have hl : s.native.getLast? = some .start ↔ s.initialized = true := by
    rw [h2, decide_eq_true_eq, List.getLast?_eq_getElem?]
    constructor
    · intro hc
      have h0 : s.native.length ≠ 0 := by
        intro h0
        rw [List.length_eq_zero_iff.1 h0] at hc
        simp at hc
      have := h1 _ _ hc
      split at this
      · omega
      · cases this
    · intro hodd
      have hlt : s.native.length - 1 < s.native.length := by omega
      rw [List.getElem?_eq_getElem hlt]
      have := h1 _ _ (List.getElem?_eq_getElem hlt)
      rw [if_pos (by omega)] at this
      rw [this]
  rw [show (s.native.getLast? ≠ some .start ↔ ¬ s.initialized = true) from not_congr hl, hl]
  refine ⟨h1, ?_, ?_, ?_, ?_⟩ <;> intro hi <;> simp only [sdkCall, initializeAws, deallocateAws, hi] <;> simp

example : (sdkRun exMachine {} [.setUp, .setUp, .tearDown, .tearDown, .setUp]) =
    (.ok [.done, .warned, .done, .done, .done], ⟨true, false, [.start, .stop, .start]⟩) := by decide +kernel

/-- **C94 is violated**: two threads that initialize the SDK at the same time may both start the native library. -/
theorem C94_threads_violated : ∃ l : List Bool, ∃ s, initThreads .check .check {} l = (.ret, .ret, s) ∧ ¬ Alternating s.native :=
  ⟨[false, true, false, true, false, true], ⟨true, false, [.start, .start]⟩, by decide, fun h => by
    have := h 1 .start rfl
    simp at this⟩

end Mlio
