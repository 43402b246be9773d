import Verif.Spec.PyLogging
import Verif.Props.PyError

/-!
# C100: the level that is set decides what is recorded
-/

namespace Mlio
open Spec

/-- The level of Python's logger is the one of the library, and nothing else is in the way. -/
structure PyLog.Plain (w : PyLog) : Prop where
  handler : w.cfg.handler = true
  own : w.own = mapLogLevel w.cfg.level
  enabled : w.disabled = 0

theorem plain_act {w : PyLog} (h : w.Plain) (a : PyLogAct)
    (ha : (∀ n, a ≠ .own n) ∧ (∀ n, a ≠ .disable n) ∧ ∀ on, a ≠ .handler on) : (w.act a).2.Plain := by
  cases a with
  | setLevel l => exact ⟨h.handler, rfl, h.enabled⟩
  | root n => exact ⟨h.handler, h.own, h.enabled⟩
  | own n => exact absurd rfl (ha.1 n)
  | disable n => exact absurd rfl (ha.2.1 n)
  | handler on => exact absurd rfl (ha.2.2 on)
  | log l t => exact h

theorem leaves_tail {a : PyLogAct} {as : List PyLogAct} (h : Leaves (a :: as)) : Leaves as :=
  fun b hb => h b (List.mem_cons_of_mem _ hb)

theorem texts_tail {a : PyLogAct} {as : List PyLogAct} (h : Texts (a :: as)) : Texts as :=
  fun l t hb => h l t (List.mem_cons_of_mem _ hb)

theorem run_fst (w : PyLog) (a : PyLogAct) (as : List PyLogAct) :
    (w.run (a :: as)).1 = (w.act a).1 ++ ((w.act a).2.run as).1 := rfl

theorem run_snd (w : PyLog) (a : PyLogAct) (as : List PyLogAct) :
    (w.run (a :: as)).2 = ((w.act a).2.run as).2 := rfl

/-- The number of a level. -/
theorem pyNumber_of {l : LogLevel} (h : l ≠ .off) : PyNumber l (mapLogLevel l) := by
  cases l with
  | off => exact absurd rfl h
  | warning => exact .warning
  | info => exact .info
  | debug => exact .debug

theorem records_of_plain : ∀ (as : List PyLogAct) (w : PyLog), w.Plain → Leaves as → Texts as →
    Records w.cfg.level as (w.run as).1 := by
  intro as
  induction as with
  | nil => intro w _ _ _; exact .nil _
  | cons a as ih =>
    intro w hw hl ht
    have hr := ih (w.act a).2 (plain_act hw a (hl a List.mem_cons_self)) (leaves_tail hl) (texts_tail ht)
    rw [run_fst]
    cases a with
    | setLevel l => exact .level _ _ _ _ hr
    | root n => exact .root _ _ _ _ hr
    | own n => exact .own _ _ _ _ hr
    | disable n => exact .disable _ _ _ _ hr
    | handler on => exact .handler _ _ _ _ hr
    | log l text =>
      obtain ⟨h0, s, hs⟩ := ht l text List.mem_cons_self
      have hw' : (w.act (.log l text)).2 = w := rfl
      rw [hw'] at hr ⊢
      simp only [PyLog.act, pyStr_of_isText hs]
      obtain ⟨⟨hd, lv⟩, own, rt, dis⟩ := w
      obtain ⟨h1, h2, h3⟩ := hw
      simp only at h1 h2 h3
      subst h1 h2 h3
      by_cases hm : l ∈ levelsAt lv
      · have e1 : LogCfg.calls ⟨true, lv⟩ l = true := by
          cases lv <;> cases l <;> first | rfl | (simp [levelsAt] at hm)
        have e2 : PyLog.enabledFor ⟨⟨true, lv⟩, mapLogLevel lv, rt, 0⟩ (mapLogLevel l) = true := by
          cases lv <;> cases l <;> first | rfl | (exact absurd rfl h0) | (simp [levelsAt] at hm)
        simp only [e1, e2, if_true]
        exact .logged _ _ _ _ _ _ _ hm hs (pyNumber_of h0) hr
      · have e1 : LogCfg.calls ⟨true, lv⟩ l = false := by
          cases lv <;> cases l <;> first | rfl | (exact absurd (by simp [levelsAt]) hm)
        simp only [e1, Bool.false_eq_true, if_false, List.nil_append]
        exact .quiet _ _ _ _ _ hm hr

/-- C100: in every program that leaves Python's settings of "mlio" alone, whatever it does to the root logger, the records
are those of the messages that the level set last lets through, each once, in order, with text and level. -/
theorem C100_records (root : Nat) (as : List PyLogAct) (hl : Leaves as) (ht : Texts as) :
    Records .warning as ((PyLog.imported root).run as).1 :=
  records_of_plain as (PyLog.imported root) ⟨rfl, rfl, rfl⟩ hl ht

/-- What `Records` says is unique. -/
theorem C100_unique (t : LogLevel) (as : List PyLogAct) (rs rs' : List (Nat × String)) (h : Records t as rs)
    (h' : Records t as rs') : rs = rs' := by
  induction h generalizing rs' with
  | nil => cases h'; rfl
  | level _ _ _ _ _ ih => cases h' with | level _ _ _ _ h => exact ih _ h
  | logged t l text s n as rs hm hs hn _ ih =>
    cases h' with
    | logged _ _ _ s' n' _ rs' _ hs' hn' h =>
      have e1 : s = s' := Option.some.inj ((pyStr_of_isText hs).symm.trans (pyStr_of_isText hs'))
      have e2 : n = n' := by cases hn <;> cases hn' <;> rfl
      rw [e1, e2, ih _ h]
    | quiet _ _ _ _ _ hm' _ => exact absurd hm hm'
  | quiet t l text as rs hm _ ih =>
    cases h' with
    | logged _ _ _ _ _ _ _ hm' _ _ _ => exact absurd hm' hm
    | quiet _ _ _ _ _ _ h => exact ih _ h
  | root _ _ _ _ _ ih => cases h' with | root _ _ _ _ h => exact ih _ h
  | own _ _ _ _ _ ih => cases h' with | own _ _ _ _ h => exact ih _ h
  | disable _ _ _ _ _ ih => cases h' with | disable _ _ _ _ h => exact ih _ h
  | handler _ _ _ _ _ ih => cases h' with | handler _ _ _ _ h => exact ih _ h

theorem records_at_most : ∀ (as : List PyLogAct) (w : PyLog), Texts as →
    ∃ rs, Records w.cfg.level as rs ∧ (w.run as).1.Sublist rs := by
  intro as
  induction as with
  | nil => intro w _; exact ⟨[], .nil _, List.Sublist.refl _⟩
  | cons a as ih =>
    intro w ht
    obtain ⟨rs, hr, hs⟩ := ih (w.act a).2 (texts_tail ht)
    rw [run_fst]
    cases a with
    | setLevel l => exact ⟨rs, .level _ _ _ _ hr, hs⟩
    | root n => exact ⟨rs, .root _ _ _ _ hr, hs⟩
    | own n => exact ⟨rs, .own _ _ _ _ hr, hs⟩
    | disable n => exact ⟨rs, .disable _ _ _ _ hr, hs⟩
    | handler on => exact ⟨rs, .handler _ _ _ _ hr, hs⟩
    | log l text =>
      obtain ⟨h0, s, hx⟩ := ht l text List.mem_cons_self
      have hw' : (w.act (.log l text)).2 = w := rfl
      rw [hw'] at hr hs ⊢
      simp only [PyLog.act, pyStr_of_isText hx]
      by_cases hm : l ∈ levelsAt w.cfg.level
      · refine ⟨(mapLogLevel l, s) :: rs, .logged _ _ _ _ _ _ _ hm hx (pyNumber_of h0) hr, ?_⟩
        split
        · split
          · simpa using hs
          · exact List.Sublist.cons _ (by simpa using hs)
        · exact List.Sublist.cons _ (by simpa using hs)
      · refine ⟨rs, .quiet _ _ _ _ _ hm hr, ?_⟩
        have e1 : w.cfg.calls l = false := by
          obtain ⟨⟨hd, lv⟩, _, _, _⟩ := w
          cases lv <;> cases l <;> first | rfl | (exact absurd (by simp [levelsAt]) hm)
        simpa [e1] using hs

/-- C100: whatever a program does to Python's settings, and if it removes the handler, nothing is recorded that the level
set last does not let through, and the order is kept. -/
theorem C100_at_most (root : Nat) (as : List PyLogAct) (ht : Texts as) :
    ∃ rs, Records .warning as rs ∧ ((PyLog.imported root).run as).1.Sublist rs :=
  records_at_most as (PyLog.imported root) ht

theorem run_plain : ∀ (as : List PyLogAct) (w : PyLog), w.Plain → Leaves as →
    (w.run as).2.Plain ∧ (w.run as).2.cfg.level = lastLevel w.cfg.level as := by
  intro as
  induction as with
  | nil => intro w h _; exact ⟨h, rfl⟩
  | cons a as ih =>
    intro w h hl
    have hp := plain_act h a (hl a List.mem_cons_self)
    obtain ⟨h1, h2⟩ := ih _ hp (leaves_tail hl)
    rw [run_snd]
    refine ⟨h1, h2.trans ?_⟩
    cases a <;> rfl

/-- C100: the logger is enabled for the levels that are let through.  Partial: not after `set_log_level(OFF)`. -/
theorem C100_logger_partial (root : Nat) (as : List PyLogAct) (hl : Leaves as) (h : lastLevel .warning as ≠ .off)
    (l : LogLevel) (n : Nat) (hn : PyNumber l n) :
    ((PyLog.imported root).run as).2.enabledFor n = true ↔ l ∈ levelsAt (lastLevel .warning as) := by
  obtain ⟨⟨_, h2, h3⟩, h4⟩ := run_plain as (PyLog.imported root) ⟨rfl, rfl, rfl⟩ hl
  have h4' : ((PyLog.imported root).run as).2.cfg.level = lastLevel .warning as := h4
  unfold PyLog.enabledFor
  rw [h3, h2, h4']
  cases hv : lastLevel .warning as <;> cases hn <;> first | (exact absurd hv h) | (simp [mapLogLevel, levelsAt])

/-- C100 fails after `set_log_level(OFF)`: the logger's level is `NOTSET`, so that it is enabled for all that the root
logger is enabled for, by default warnings. -/
theorem C100_off_violated (root : Nat) (as : List PyLogAct) (hl : Leaves as) (n : Nat)
    (hn : root ≤ n ∧ 0 < n) (hr : ∀ m, .root m ∉ as) :
    ((PyLog.imported root).run (as ++ [.setLevel .off])).2.enabledFor n = true := by
  have key : ∀ (as : List PyLogAct) (w : PyLog), w.Plain → Leaves as → (∀ m, .root m ∉ as) →
      (w.run (as ++ [.setLevel .off])).2.own = 0 ∧ (w.run (as ++ [.setLevel .off])).2.root = w.root ∧
      (w.run (as ++ [.setLevel .off])).2.disabled = 0 := by
    intro as
    induction as with
    | nil => intro w h _ _; exact ⟨rfl, rfl, h.enabled⟩
    | cons a as ih =>
      intro w h hl hr
      obtain ⟨h1, h2, h3⟩ := ih _ (plain_act h a (hl a List.mem_cons_self)) (leaves_tail hl)
        (fun m hm => hr m (List.mem_cons_of_mem _ hm))
      rw [List.cons_append, run_snd]
      refine ⟨h1, h2.trans ?_, h3⟩
      cases a with
      | root m => exact absurd List.mem_cons_self (hr m)
      | _ => rfl
  obtain ⟨h1, h2, h3⟩ := key as (PyLog.imported root) ⟨rfl, rfl, rfl⟩ hl hr
  unfold PyLog.enabledFor
  rw [h1, h2, h3]
  have h0 : ¬ n = 0 := by omega
  simp [PyLog.imported, hn.1, h0]

/-- A program that meets the conditions, and its records: the root logger does not matter. -/
example : ∃ as, Leaves as ∧ Texts as ∧ ((PyLog.imported 50).run as).1 = [(30, "a"), (20, "c")] ∧
    lastLevel .warning as = .off := by
  refine ⟨[.log .warning [97], .log .info [98], .setLevel .info, .root 10, .log .info [99], .log .debug [100],
    .setLevel .off, .log .warning [101]], ?_, ?_, by decide +kernel, rfl⟩
  · intro a ha
    simp only [List.mem_cons, List.not_mem_nil, or_false] at ha
    rcases ha with rfl | rfl | rfl | rfl | rfl | rfl | rfl | rfl <;> simp
  · intro l text hm
    simp only [List.mem_cons, List.not_mem_nil, or_false, PyLogAct.log.injEq, reduceCtorEq, false_or] at hm
    rcases hm with ⟨rfl, rfl⟩ | ⟨rfl, rfl⟩ | ⟨rfl, rfl⟩ | ⟨rfl, rfl⟩ | ⟨rfl, rfl⟩
    · exact ⟨by simp, "a", by unfold IsText; decide +kernel⟩
    · exact ⟨by simp, "b", by unfold IsText; decide +kernel⟩
    · exact ⟨by simp, "c", by unfold IsText; decide +kernel⟩
    · exact ⟨by simp, "d", by unfold IsText; decide +kernel⟩
    · exact ⟨by simp, "e", by unfold IsText; decide +kernel⟩

end Mlio
