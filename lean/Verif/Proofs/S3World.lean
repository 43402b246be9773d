import Verif.Model.S3World

/-!
# Lemmas about the stream of an S3 object
-/

namespace Mlio
open Spec

theorem s3Code_told (e : S3Error) : s3Code e = toldAs e := by cases e <;> rfl

/-- Reading from a service that has the object. -/
theorem clientRead_found (s : Service) (o : ObjName) (v : Bytes) (x : Bytes) (hx : s.find o v = some x) (p n : Nat) (hp : p < x.length)
    (f : Option S3Error) :
    clientRead s o v p n f = match f with | some e => .error (toldAs e) | none => .ok ((x.drop p).take n) := by
  cases f with
  | some e => simp only [clientRead, s3Request, s3Code_told]
  | none =>
    have : s.get o v p (p + n) = .ok ((x.drop p).take (n + 1)) := by
      simp only [Service.get, hx]
      rw [if_neg (by omega)]
      congr 2; omega
    simp only [clientRead, s3Request, this]
    rw [List.take_take, Nat.min_eq_left (by omega)]

/-- The stream over `x` at `pos`. -/
def ObjStream.at (o : ObjName) (v : Bytes) (size pos : Nat) (closed : Bool) : ObjStream := ⟨o, v, ⟨closed, size, pos⟩⟩

theorem read_found (s : Service) (o : ObjName) (v : Bytes) (x : Bytes) (hx : s.find o v = some x) (p n : Nat) (hp : p ≤ x.length)
    (f : Option S3Error) :
    (ObjStream.at o v x.length p false).read s n f =
      ((faultyRead x p n f).1, ObjStream.at o v x.length (faultyRead x p n f).2 false) := by
  unfold ObjStream.read faultyRead ObjStream.at
  simp only [Bool.false_eq_true, if_false]
  by_cases h : n = 0 ∨ p = x.length
  · rw [if_pos h, if_pos (by omega)]
  · rw [if_neg h, if_neg (by omega), clientRead_found s o v x hx p _ (by omega) f]
    cases f with
    | some e => rfl
    | none =>
      simp only
      have hb : (x.drop p).take (min (x.length - p) n) = (x.drop p).take n := by
        rw [← List.length_drop, Nat.min_comm, ← List.take_take, List.take_length]
      rw [hb]
      have hl : ((x.drop p).take n).length = min n (x.length - p) := by simp
      rw [hl]
      have : p + min n (x.length - p) = min (p + n) x.length := by omega
      rw [this]

theorem faultyCall_pos (x : Bytes) (p : Nat) (c : Bool) (k : StreamCall) (f : Option S3Error) (hp : p ≤ x.length) :
    (faultyCall x p c k f).2.1 ≤ x.length := by
  have hr : ∀ n, (faultyRead x p n f).2 ≤ x.length := by
    intro n
    unfold faultyRead
    split
    · exact hp
    · cases f with
      | some e => exact hp
      | none => simp only; omega
  cases k <;> simp only [faultyCall]
  case readInto n => cases c <;> simp [hp, hr]
  case read n => cases c <;> simp [hp, hr]
  case seek n => cases c <;> simp only [Bool.false_eq_true, if_true, if_false] <;> first | exact hp | (split <;> simp_all)
  all_goals exact hp

theorem call_found (s : Service) (o : ObjName) (v : Bytes) (x : Bytes) (hx : s.find o v = some x) (p : Nat) (c : Bool) (hp : p ≤ x.length)
    (k : StreamCall) (f : Option S3Error) :
    (ObjStream.at o v x.length p c).call s f k =
      ((faultyCall x p c k f).1, ObjStream.at o v x.length (faultyCall x p c k f).2.1 (faultyCall x p c k f).2.2) := by
  have hr : ∀ n, (ObjStream.at o v x.length p c).read s n f =
      if c then (.closed, ObjStream.at o v x.length p c)
      else ((faultyRead x p n f).1, ObjStream.at o v x.length (faultyRead x p n f).2 c) := by
    intro n
    cases c with
    | true => rfl
    | false => exact read_found s o v x hx p n hp f
  cases k with
  | readInto n =>
    show (ObjStream.at o v x.length p c).read s n f = _
    rw [hr]; cases c <;> rfl
  | read n =>
    show (ObjStream.at o v x.length p c).read s n f = _
    rw [hr]; cases c <;> rfl
  | seek n =>
    cases c with
    | true => rfl
    | false =>
      by_cases h : n ≤ x.length
      · have h' : ¬ x.length < n := by omega
        simp [ObjStream.call, ObjStream.seek, ObjStream.at, faultyCall, h, h']
      · have h' : x.length < n := by omega
        simp [ObjStream.call, ObjStream.seek, ObjStream.at, faultyCall, h, h']
  | size => rfl
  | position => rfl
  | close => rfl

/-- A change that leaves the version of the stream alone. -/
theorem find_apply (s : Service) (o : ObjName) (v : Bytes) (c : S3Change)
    (h : c.name ≠ o ∨ (v ≠ [] ∧ c.version ≠ v)) : (s.apply c).find o v = s.find o v := by
  by_cases hn : o = c.name
  · have hv : v ≠ [] ∧ c.version ≠ v := by
      rcases h with h | h
      · exact absurd hn.symm h
      · exact h
    unfold Service.find
    rw [if_neg hv.1, if_neg hv.1]
    have key : (s.apply c o).find? (fun w => w.1 == v) = (s o).find? (fun w => w.1 == v) := by
      unfold Service.apply
      rw [if_pos hn]
      cases c with
      | put o' w x =>
        have : w ≠ v := hv.2
        simp only [List.find?_cons]
        rw [show ((w == v) = false) from by simpa using this]
      | delete o' w =>
        have : w ≠ v := hv.2
        simp only [List.find?_cons]
        rw [show ((w == v) = false) from by simpa using this]
      | purge o' w =>
        have hw : w ≠ v := hv.2
        simp only
        induction s o with
        | nil => rfl
        | cons a l ih =>
          by_cases ha : a.1 = w
          · have h1 : (a.1 != w) = false := by simp [ha]
            have h2 : (a.1 == v) = false := by rw [ha]; simpa using hw
            simp only [List.filter_cons, h1, Bool.false_eq_true, if_false, List.find?_cons, h2]
            exact ih
          · have h1 : (a.1 != w) = true := by simp [ha]
            simp only [List.filter_cons, h1, if_true, List.find?_cons]
            cases a.1 == v with
            | true => rfl
            | false => exact ih
    rw [key]
  · have : s.apply c o = s o := by unfold Service.apply; rw [if_neg hn]
    unfold Service.find
    rw [this]

theorem run_found (o : ObjName) (v : Bytes) (x : Bytes) : ∀ (es : List S3Event) (s : Service) (p : Nat) (c : Bool),
    s.find o v = some x → p ≤ x.length →
    (∀ d, S3Event.change d ∈ es → d.name ≠ o ∨ (v ≠ [] ∧ d.version ≠ v)) →
    ObjStream.run s (ObjStream.at o v x.length p c) es = faultyCalls x p c (callsOf es)
  | [], _, _, _, _, _, _ => rfl
  | .change d :: es, s, p, c, hx, hp, hd => by
    show ObjStream.run (s.apply d) _ es = _
    exact run_found o v x es (s.apply d) p c ((find_apply s o v d (hd d (by simp))).trans hx) hp (fun e he => hd e (by simp [he]))
  | .call k f :: es, s, p, c, hx, hp, hd => by
    simp only [ObjStream.run, callsOf, faultyCalls]
    rw [call_found s o v x hx p c hp k f]
    simp only
    rw [run_found o v x es s _ _ hx (faultyCall_pos x p c k f hp) (fun e he => hd e (by simp [he]))]

/-- Only reads. -/
theorem faultyCalls_reads (x : Bytes) : ∀ (ks : List (StreamCall × Option S3Error)) (p : Nat), p ≤ x.length →
    (∀ k ∈ ks, ∃ n, k.1 = .readInto n ∨ k.1 = .read n) →
    ∃ q, p ≤ q ∧ q ≤ x.length ∧ bytesRead (faultyCalls x p false ks) = (x.drop p).take (q - p) ∧
      ∀ (i n : Nat), ks[i]?.map (·.1) = some (.readInto n) ∨ ks[i]?.map (·.1) = some (.read n) → n ≠ 0 → (faultyCalls x p false ks)[i]? = some (.bytes []) → q = x.length
  | [], p, hp, _ => ⟨p, by omega, hp, by simp [faultyCalls, bytesRead], fun i n h => by simp at h⟩
  | k :: ks, p, hp, hk => by
    obtain ⟨n, hn⟩ := hk k (by simp)
    have hcall : faultyCall x p false k.1 k.2 = ((faultyRead x p n k.2).1, (faultyRead x p n k.2).2, false) := by
      rcases hn with h | h <;> rw [h] <;> rfl
    obtain ⟨q, hq1, hq2, hq3, hq4⟩ := faultyCalls_reads x ks (faultyRead x p n k.2).2
      (by have := faultyCall_pos x p false k.1 k.2 hp; rwa [hcall] at this) (fun k' h' => hk k' (by simp [h']))
    have hpos : p ≤ (faultyRead x p n k.2).2 := by
      unfold faultyRead; split
      · exact Nat.le_refl _
      · cases k.2 <;> simp only <;> omega
    refine ⟨q, by omega, hq2, ?_, ?_⟩
    · simp only [faultyCalls, hcall]
      by_cases hc : n = 0 ∨ x.length ≤ p
      · have : faultyRead x p n k.2 = (.bytes [], p) := by unfold faultyRead; rw [if_pos hc]
        rw [this] at hq3 ⊢
        simpa [bytesRead] using hq3
      · cases hf : k.2 with
        | some e =>
          have : faultyRead x p n k.2 = (.fails (toldAs e), p) := by unfold faultyRead; rw [if_neg hc, hf]
          rw [hf] at this hq3
          rw [this] at hq3 ⊢
          simpa [bytesRead] using hq3
        | none =>
          have : faultyRead x p n k.2 = (.bytes ((x.drop p).take n), min (p + n) x.length) := by unfold faultyRead; rw [if_neg hc, hf]
          rw [hf] at hq3
          rw [hf] at this
          rw [hf, this] at hq1
          rw [this] at hq3 ⊢
          simp only [bytesRead, hq3]
          have hqp : min (p + n) x.length ≤ q := hq1
          by_cases hle : p + n ≤ x.length
          · rw [Nat.min_eq_left hle] at hqp ⊢
            have : q - p = n + (q - (p + n)) := by omega
            rw [this, List.take_add, List.drop_drop]
          · rw [Nat.min_eq_right (by omega)] at hqp ⊢
            have : q = x.length := by omega
            subst this
            simp only [List.drop_length, List.take_nil, List.append_nil]
            rw [List.take_of_length_le (by simp; omega), List.take_of_length_le (by simp)]
    · intro i m hi hm ho
      cases i with
      | zero =>
        simp only [List.getElem?_cons_zero, Option.map_some, Option.some.injEq] at hi
        simp only [faultyCalls, hcall, List.getElem?_cons_zero, Option.some.injEq] at ho
        have hnm : n = m := by rcases hn with h | h <;> rw [h] at hi <;> simp_all
        subst hnm
        unfold faultyRead at ho
        by_cases hc : n = 0 ∨ x.length ≤ p
        · omega
        · rw [if_neg hc] at ho
          cases hf : k.2 with
          | some e => rw [hf] at ho; cases ho
          | none =>
            rw [hf] at ho
            simp only [S3Out.bytes.injEq] at ho
            have := congrArg List.length ho
            simp at this
            omega
      | succ i =>
        simp only [List.getElem?_cons_succ] at hi
        simp only [faultyCalls, hcall, List.getElem?_cons_succ] at ho
        exact hq4 i m hi hm ho

end Mlio
