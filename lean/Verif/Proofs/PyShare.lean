import Verif.Spec.PyShare

namespace Mlio
open Spec

def ctxTensor (cs : List ShContext) (c : Nat) : Nat := (cs.map ShContext.tensor).getD c 0

def absKind (cs : List ShContext) : ShKind → ShareKind × Nat
  | .tensor t => (.tensor, t)
  | .view t => (.view, t)
  | .capsule c used => (if used then .emptyCapsule else .capsule, ctxTensor cs c)
  | .array c => (.array, ctxTensor cs c)

def absObj (cs : List ShContext) (o : ShObj) : Share := ⟨(absKind cs o.kind).1, (absKind cs o.kind).2, o.gone⟩

def refersTo (t : Nat) (o : Share) : Bool := o.tensor == t && !o.gone && o.kind != .emptyCapsule

/-- The object owns the context. -/
def Owns (o : ShObj) (c : Nat) : Prop := o.gone = false ∧ (o.kind = .capsule c false ∨ o.kind = .array c)

/-- In range. -/
def Bound (nt nc : Nat) : ShKind → Prop
  | .tensor t => t < nt
  | .view t => t < nt
  | .capsule c _ => c < nc
  | .array c => c < nc

theorem Bound.mono {nt nc nt' nc' : Nat} (h1 : nt ≤ nt') (h2 : nc ≤ nc') {k : ShKind} (h : Bound nt nc k) : Bound nt' nc' k := by
  cases k <;> simp only [Bound] at h ⊢ <;> omega

structure ShareInv (bufs : List Bool) (s : ShState) (e : ShareEnv) : Prop where
  plain : e.plain = s.tensors.map ShTensor.plain
  buffers : ∀ (t : Nat) (x : ShTensor), s.tensors[t]? = some x → bufs[t]? = some x.buffer
  objs : e.objs = s.objs.map (absObj s.contexts)
  bound : ∀ o ∈ s.objs, Bound s.tensors.length s.contexts.length o.kind
  cbound : ∀ c ∈ s.contexts, c.tensor < s.tensors.length
  count : ∀ (t : Nat) (x : ShTensor), s.tensors[t]? = some x → x.refs = e.objs.countP (refersTo t)
  freed : ∀ (t : Nat) (x : ShTensor), s.tensors[t]? = some x → (x.freed = true ↔ x.refs = 0)
  owned : ∀ (i : Nat) (o : ShObj) (c : Nat) (z : ShContext), s.objs[i]? = some o → Owns o c → s.contexts[c]? = some z → z.deleted = false
  unique : ∀ (i j : Nat) (o o' : ShObj) (c : Nat), s.objs[i]? = some o → s.objs[j]? = some o' → Owns o c → Owns o' c → i = j

theorem sh_get {s : ShState} {x : Nat} {k : ShKind} : s.get x = some k ↔ s.objs[x]? = some ⟨k, false⟩ := by
  unfold ShState.get
  constructor
  · intro h
    split at h
    · rename_i hx; cases h; exact hx
    · cases h
  · intro h; rw [h]

theorem ShareInv.get {bufs : List Bool} {s : ShState} {e : ShareEnv} (h : ShareInv bufs s e) (x : Nat) : e.get x = (s.get x).map (absKind s.contexts) := by
  unfold ShareEnv.get ShState.get
  rw [h.objs, List.getElem?_map]
  cases hx : s.objs[x]? with
  | none => rfl
  | some o =>
    obtain ⟨k, g⟩ := o
    cases g <;> rfl

/-- The tensor of an object that refers to it is there. -/
theorem ShareInv.tensor {bufs : List Bool} {s : ShState} {e : ShareEnv} (h : ShareInv bufs s e) {x : Nat} {k : ShKind} (hk : s.get x = some k)
    (hne : (absKind s.contexts k).1 ≠ .emptyCapsule) :
    ∃ y, s.tensors[(absKind s.contexts k).2]? = some y ∧ y.refs = e.objs.countP (refersTo (absKind s.contexts k).2) ∧ 0 < y.refs ∧ y.freed = false := by
  have hx := sh_get.1 hk
  have hm := List.mem_of_getElem? hx
  have hb := h.bound _ hm
  have hlt : (absKind s.contexts k).2 < s.tensors.length := by
    have hc : ∀ c, c < s.contexts.length → ctxTensor s.contexts c < s.tensors.length := by
      intro c hc
      unfold ctxTensor
      rw [List.getD_eq_getElem?_getD, List.getElem?_map, List.getElem?_eq_getElem hc]
      exact h.cbound _ (List.getElem_mem hc)
    cases k with
    | tensor t => exact hb
    | view t => exact hb
    | capsule c u => exact hc c hb
    | array c => exact hc c hb
  refine ⟨_, List.getElem?_eq_getElem hlt, h.count _ _ (List.getElem?_eq_getElem hlt), ?_⟩
  have hpos : 0 < s.tensors[(absKind s.contexts k).2].refs := by
    rw [h.count _ _ (List.getElem?_eq_getElem hlt), List.countP_pos_iff, h.objs]
    refine ⟨absObj s.contexts ⟨k, false⟩, List.mem_map_of_mem hm, ?_⟩
    simp [refersTo, absObj, hne]
  refine ⟨hpos, ?_⟩
  have := h.freed _ _ (List.getElem?_eq_getElem hlt)
  cases hf : s.tensors[(absKind s.contexts k).2].freed with
  | false => rfl
  | true => have := this.1 hf; omega

theorem ctxTensor_append (cs : List ShContext) (z : ShContext) {c : Nat} (h : c < cs.length) : ctxTensor (cs ++ [z]) c = ctxTensor cs c := by
  unfold ctxTensor
  rw [List.map_append, List.getD_eq_getElem?_getD, List.getD_eq_getElem?_getD, List.getElem?_append_left (by simpa using h)]

theorem absObj_append (cs : List ShContext) (z : ShContext) {nt : Nat} {o : ShObj} (h : Bound nt cs.length o.kind) : absObj (cs ++ [z]) o = absObj cs o := by
  obtain ⟨k, g⟩ := o
  cases k <;> simp only [absObj, absKind]
  · rw [ctxTensor_append cs z h]
  · rw [ctxTensor_append cs z h]

theorem map_tensor_set {cs : List ShContext} {c : Nat} {z : ShContext} (h : cs[c]? = some z) (b : Bool) :
    (cs.set c { z with deleted := b }).map ShContext.tensor = cs.map ShContext.tensor := by
  apply List.ext_getElem?
  intro i
  rw [List.getElem?_map, List.getElem?_map, List.getElem?_set]
  split
  · rename_i hi
    subst hi
    rw [h]
    simp [(List.getElem?_eq_some_iff.1 h).1]
  · rfl

theorem absObj_congr {cs cs' : List ShContext} (h : cs'.map ShContext.tensor = cs.map ShContext.tensor) (o : ShObj) : absObj cs' o = absObj cs o := by
  obtain ⟨k, g⟩ := o
  cases k <;> simp only [absObj, absKind, ctxTensor, h]

theorem sh_retain {s : ShState} {t : Nat} {y : ShTensor} (ht : s.tensors[t]? = some y) (hf : y.freed = false) :
    s.retain t = .ok { s with tensors := s.tensors.set t { y with refs := y.refs + 1 } } := by
  unfold ShState.retain
  rw [ht]
  simp [hf]

/-- A new object with a reference. -/
theorem ShareInv.push_ref {bufs : List Bool} {s : ShState} {e : ShareEnv} (h : ShareInv bufs s e) {t : Nat} {y : ShTensor} (ht : s.tensors[t]? = some y) (hf : y.freed = false)
    (k : ShKind) (hk : k = .tensor t ∨ k = .view t) :
    ShareInv bufs { s with tensors := s.tensors.set t { y with refs := y.refs + 1 }, objs := s.objs ++ [⟨k, false⟩] } (e.push (absKind s.contexts k).1 t) := by
  have hlt := (List.getElem?_eq_some_iff.1 ht).1
  have hnot : ∀ c, ¬ Owns ⟨k, false⟩ c := by
    rintro c ⟨_, h1⟩
    rcases hk with rfl | rfl <;> simp at h1
  have hcount : ∀ u, (e.push (absKind s.contexts k).1 t).objs.countP (refersTo u) = e.objs.countP (refersTo u) + if u = t then 1 else 0 := by
    intro u
    simp only [ShareEnv.push, List.countP_append, List.countP_singleton]
    by_cases hu : u = t
    · subst hu; rcases hk with rfl | rfl <;> simp [refersTo, absKind]
    · rcases hk with rfl | rfl <;> simp [refersTo, absKind, hu, Ne.symm hu]
  have hget : ∀ u x, (s.tensors.set t { y with refs := y.refs + 1 })[u]? = some x →
      (u = t ∧ x = { y with refs := y.refs + 1 }) ∨ (u ≠ t ∧ s.tensors[u]? = some x) := by
    intro u x hx
    rw [List.getElem?_set] at hx
    split at hx
    · rename_i hu
      try rw [if_pos hlt] at hx
      cases hx
      exact .inl ⟨hu.symm, rfl⟩
    · rename_i hu
      exact .inr ⟨fun h => hu h.symm, hx⟩
  constructor
  · show e.plain = _
    rw [h.plain]
    apply List.ext_getElem?
    intro i
    simp only [List.getElem?_map, List.getElem?_set]
    split
    · rename_i hi
      subst hi
      rw [ht]; try rw [if_pos hlt]
      rfl
    · rfl
  · intro u x hx
    rcases hget u x hx with ⟨rfl, rfl⟩ | ⟨_, hx⟩
    · exact h.buffers _ y ht
    · exact h.buffers _ _ hx
  · simp only [ShareEnv.push, List.map_append, List.map_singleton, h.objs]
    rcases hk with rfl | rfl <;> rfl
  · intro o ho
    rw [List.length_set]
    rcases List.mem_append.1 ho with ho | ho
    · exact h.bound o ho
    · rw [List.mem_singleton.1 ho]
      rcases hk with rfl | rfl <;> exact hlt
  · intro c hc
    rw [List.length_set]
    exact h.cbound c hc
  · intro u x hx
    rw [hcount]
    rcases hget u x hx with ⟨rfl, rfl⟩ | ⟨hu, hx⟩
    · rw [if_pos rfl, ← h.count _ _ ht]
    · rw [if_neg hu, ← h.count _ _ hx]
      rfl
  · intro u x hx
    rcases hget u x hx with ⟨rfl, rfl⟩ | ⟨hu, hx⟩
    · simp [hf]
    · exact h.freed _ _ hx
  · intro i o c z hi ho hz
    rw [List.getElem?_append] at hi
    split at hi
    · exact h.owned i o c z hi ho hz
    · rw [List.getElem?_singleton] at hi
      split at hi
      · cases hi; exact absurd ho (hnot c)
      · cases hi
  · intro i j o o' c hi hj ho ho'
    rw [List.getElem?_append] at hi hj
    split at hi
    · split at hj
      · exact h.unique i j o o' c hi hj ho ho'
      · rw [List.getElem?_singleton] at hj
        split at hj
        · cases hj; exact absurd ho' (hnot c)
        · cases hj
    · rw [List.getElem?_singleton] at hi
      split at hi
      · cases hi; exact absurd ho (hnot c)
      · cases hi

/-- A new capsule. -/
theorem ShareInv.push_capsule {bufs : List Bool} {s : ShState} {e : ShareEnv} (h : ShareInv bufs s e) {t : Nat} {y : ShTensor} (ht : s.tensors[t]? = some y) (hf : y.freed = false) :
    ShareInv bufs { s with tensors := s.tensors.set t { y with refs := y.refs + 1 }, contexts := s.contexts ++ [⟨t, false⟩],
                           objs := s.objs ++ [⟨.capsule s.contexts.length false, false⟩] } (e.push .capsule t) := by
  have hlt := (List.getElem?_eq_some_iff.1 ht).1
  have hcount : ∀ u, (e.push .capsule t).objs.countP (refersTo u) = e.objs.countP (refersTo u) + if u = t then 1 else 0 := by
    intro u
    simp only [ShareEnv.push, List.countP_append, List.countP_singleton]
    by_cases hu : u = t
    · simp [refersTo, hu]
    · simp [refersTo, hu, Ne.symm hu]
  have hget : ∀ u x, (s.tensors.set t { y with refs := y.refs + 1 })[u]? = some x →
      (u = t ∧ x = { y with refs := y.refs + 1 }) ∨ (u ≠ t ∧ s.tensors[u]? = some x) := by
    intro u x hx
    rw [List.getElem?_set] at hx
    split at hx
    · rename_i hu
      try rw [if_pos hlt] at hx
      cases hx
      exact .inl ⟨hu.symm, rfl⟩
    · rename_i hu
      exact .inr ⟨fun h => hu h.symm, hx⟩
  have hlast : ctxTensor (s.contexts ++ [⟨t, false⟩]) s.contexts.length = t := by
    unfold ctxTensor
    simp [List.getD_eq_getElem?_getD]
  have hown : ∀ (i : Nat) o c, s.objs[i]? = some o → Owns o c → c < s.contexts.length := by
    intro i o c hi ho
    have hb := h.bound o (List.mem_of_getElem? hi)
    rcases ho.2 with hk | hk <;> rw [hk] at hb <;> exact hb
  constructor
  · show e.plain = _
    rw [h.plain]
    apply List.ext_getElem?
    intro i
    simp only [List.getElem?_map, List.getElem?_set]
    split
    · rename_i hi
      subst hi
      rw [ht]; try rw [if_pos hlt]
      rfl
    · rfl
  · intro u x hx
    rcases hget u x hx with ⟨rfl, rfl⟩ | ⟨_, hx⟩
    · exact h.buffers _ y ht
    · exact h.buffers _ _ hx
  · simp only [ShareEnv.push, List.map_append, List.map_singleton, h.objs]
    congr 1
    · apply List.map_congr_left
      intro o ho
      exact (absObj_append s.contexts _ (h.bound o ho)).symm
    · simp [absObj, absKind, hlast]
  · intro o ho
    rw [List.length_set, List.length_append, List.length_singleton]
    rcases List.mem_append.1 ho with ho | ho
    · exact (h.bound o ho).mono (Nat.le_refl _) (by omega)
    · rw [List.mem_singleton.1 ho]
      simp [Bound]
  · intro c hc
    rw [List.length_set]
    rcases List.mem_append.1 hc with hc | hc
    · exact h.cbound c hc
    · rw [List.mem_singleton.1 hc]
      exact hlt
  · intro u x hx
    rw [hcount]
    rcases hget u x hx with ⟨rfl, rfl⟩ | ⟨hu, hx⟩
    · rw [if_pos rfl, ← h.count _ _ ht]
    · rw [if_neg hu, ← h.count _ _ hx]
      rfl
  · intro u x hx
    rcases hget u x hx with ⟨rfl, rfl⟩ | ⟨hu, hx⟩
    · simp [hf]
    · exact h.freed _ _ hx
  · intro i o c z hi ho hz
    rw [List.getElem?_append] at hi
    split at hi
    · rw [List.getElem?_append_left (hown i o c hi ho)] at hz
      exact h.owned i o c z hi ho hz
    · rw [List.getElem?_singleton] at hi
      split at hi
      · cases hi
        rcases ho.2 with hk | hk
        · cases hk
          simp at hz
          rw [← hz]
        · cases hk
      · cases hi
  · intro i j o o' c hi hj ho ho'
    rw [List.getElem?_append] at hi hj
    split at hi
    · split at hj
      · exact h.unique i j o o' c hi hj ho ho'
      · rw [List.getElem?_singleton] at hj
        split at hj
        · cases hj
          have := hown i o c hi ho
          rcases ho'.2 with hk | hk
          · cases hk; omega
          · cases hk
        · cases hj
    · rw [List.getElem?_singleton] at hi
      split at hi
      · cases hi
        split at hj
        · have := hown j o' c hj ho'
          rcases ho.2 with hk | hk
          · cases hk; omega
          · cases hk
        · rw [List.getElem?_singleton] at hj
          split at hj
          · omega
          · cases hj
      · cases hi

/-- A new tensor. -/
theorem ShareInv.push_tensor {bufs : List Bool} {s : ShState} {e : ShareEnv} (h : ShareInv bufs s e) (b p : Bool) (hb : bufs[s.tensors.length]? = some b) :
    ShareInv bufs { s with tensors := s.tensors ++ [⟨b, p, 1, false⟩], objs := s.objs ++ [⟨.tensor s.tensors.length, false⟩] }
      (ShareEnv.push { e with plain := e.plain ++ [p] } .tensor e.plain.length) := by
  have hpl : e.plain.length = s.tensors.length := by rw [h.plain]; simp
  have hnot : ∀ c, ¬ Owns ⟨.tensor s.tensors.length, false⟩ c := by
    rintro c ⟨_, h1⟩
    simp at h1
  have hten : ∀ c, c < s.contexts.length → ctxTensor s.contexts c < s.tensors.length := by
    intro c hc
    unfold ctxTensor
    rw [List.getD_eq_getElem?_getD, List.getElem?_map, List.getElem?_eq_getElem hc]
    exact h.cbound _ (List.getElem_mem hc)
  have hnew : e.objs.countP (refersTo s.tensors.length) = 0 := by
    rw [List.countP_eq_zero, h.objs]
    intro o ho
    obtain ⟨o', ho', rfl⟩ := List.mem_map.1 ho
    have hb := h.bound o' ho'
    obtain ⟨k, g⟩ := o'
    have : (absKind s.contexts k).2 < s.tensors.length := by
      cases k with
      | tensor t => exact hb
      | view t => exact hb
      | capsule c u => exact hten c hb
      | array c => exact hten c hb
    simp only [refersTo, absObj]
    simp
    omega
  have hcount : ∀ u, (ShareEnv.push { e with plain := e.plain ++ [p] } .tensor e.plain.length).objs.countP (refersTo u) =
      e.objs.countP (refersTo u) + if u = s.tensors.length then 1 else 0 := by
    intro u
    simp only [ShareEnv.push, List.countP_append, List.countP_singleton, hpl]
    by_cases hu : u = s.tensors.length
    · simp [refersTo, hu]
    · simp [refersTo, hu, Ne.symm hu]
  have hget : ∀ u x, (s.tensors ++ [(⟨b, p, 1, false⟩ : ShTensor)])[u]? = some x →
      (u = s.tensors.length ∧ x = ⟨b, p, 1, false⟩) ∨ (u < s.tensors.length ∧ s.tensors[u]? = some x) := by
    intro u x hx
    rw [List.getElem?_append] at hx
    split at hx
    · exact .inr ⟨by assumption, hx⟩
    · rw [List.getElem?_singleton] at hx
      split at hx
      · cases hx; exact .inl ⟨by omega, rfl⟩
      · cases hx
  constructor
  · simp [ShareEnv.push, h.plain]
  · intro u x hx
    rcases hget u x hx with ⟨rfl, rfl⟩ | ⟨_, hx⟩
    · exact hb
    · exact h.buffers _ _ hx
  · simp only [ShareEnv.push, List.map_append, List.map_singleton, h.objs, hpl]
    rfl
  · intro o ho
    rw [List.length_append, List.length_singleton]
    rcases List.mem_append.1 ho with ho | ho
    · exact (h.bound o ho).mono (by omega) (Nat.le_refl _)
    · rw [List.mem_singleton.1 ho]
      simp [Bound]
  · intro c hc
    rw [List.length_append, List.length_singleton]
    have := h.cbound c hc
    omega
  · intro u x hx
    rw [hcount]
    rcases hget u x hx with ⟨rfl, rfl⟩ | ⟨hu, hx⟩
    · rw [if_pos rfl, hnew]
    · rw [if_neg (by omega), ← h.count _ _ hx]
      rfl
  · intro u x hx
    rcases hget u x hx with ⟨rfl, rfl⟩ | ⟨hu, hx⟩
    · simp
    · exact h.freed _ _ hx
  · intro i o c z hi ho hz
    rw [List.getElem?_append] at hi
    split at hi
    · exact h.owned i o c z hi ho hz
    · rw [List.getElem?_singleton] at hi
      split at hi
      · cases hi; exact absurd ho (hnot c)
      · cases hi
  · intro i j o o' c hi hj ho ho'
    rw [List.getElem?_append] at hi hj
    split at hi
    · split at hj
      · exact h.unique i j o o' c hi hj ho ho'
      · rw [List.getElem?_singleton] at hj
        split at hj
        · cases hj; exact absurd ho' (hnot c)
        · cases hj
    · rw [List.getElem?_singleton] at hi
      split at hi
      · cases hi; exact absurd ho (hnot c)
      · cases hi

theorem absObjs_set {s : ShState} {e : ShareEnv} {x : Nat} {o : ShObj} (h : e.objs = s.objs.map (absObj s.contexts)) :
    e.objs.set x (absObj s.contexts o) = (s.objs.set x o).map (absObj s.contexts) := by
  rw [h, List.map_set]

/-- A capsule is taken. -/
theorem ShareInv.take {bufs : List Bool} {s : ShState} {e : ShareEnv} (h : ShareInv bufs s e) {x c : Nat} (hx : s.objs[x]? = some ⟨.capsule c false, false⟩) :
    ShareInv bufs { s with objs := s.objs.set x ⟨.capsule c true, false⟩ ++ [⟨.array c, false⟩] }
      (ShareEnv.push { e with objs := e.objs.set x ⟨.emptyCapsule, ctxTensor s.contexts c, false⟩ } .array (ctxTensor s.contexts c)) := by
  have hlt := (List.getElem?_eq_some_iff.1 hx).1
  have hxe := (List.getElem?_eq_some_iff.1 hx).2
  have hobjs : e.objs.set x ⟨.emptyCapsule, ctxTensor s.contexts c, false⟩ = (s.objs.set x ⟨.capsule c true, false⟩).map (absObj s.contexts) :=
    absObjs_set (o := ⟨.capsule c true, false⟩) h.objs
  have hle : x < e.objs.length := by rw [h.objs]; simpa using hlt
  have hee : e.objs[x] = ⟨.capsule, ctxTensor s.contexts c, false⟩ := by
    have : e.objs[x]? = some ⟨.capsule, ctxTensor s.contexts c, false⟩ := by rw [h.objs, List.getElem?_map, hx]; rfl
    exact (List.getElem?_eq_some_iff.1 this).2
  have hcount : ∀ u, (ShareEnv.push { e with objs := e.objs.set x ⟨.emptyCapsule, ctxTensor s.contexts c, false⟩ } .array (ctxTensor s.contexts c)).objs.countP (refersTo u) =
      e.objs.countP (refersTo u) := by
    intro u
    simp only [ShareEnv.push, List.countP_append, List.countP_singleton]
    rw [List.countP_set hle, hee]
    by_cases hu : ctxTensor s.contexts c = u
    · have hpos : 0 < e.objs.countP (refersTo u) := by
        rw [List.countP_pos_iff]
        exact ⟨e.objs[x], List.getElem_mem hle, by rw [hee]; simp [refersTo, hu]⟩
      simp [refersTo, hu]
      omega
    · simp [refersTo, hu]
  have hobj : ∀ i o, (s.objs.set x ⟨.capsule c true, false⟩ ++ [(⟨.array c, false⟩ : ShObj)])[i]? = some o →
      (i = x ∧ o = ⟨.capsule c true, false⟩) ∨ (i = s.objs.length ∧ o = ⟨.array c, false⟩) ∨ (i ≠ x ∧ i < s.objs.length ∧ s.objs[i]? = some o) := by
    intro i o hi
    rw [List.getElem?_append] at hi
    split at hi
    · rename_i hil
      rw [List.length_set] at hil
      rw [List.getElem?_set] at hi
      split at hi
      · rename_i hxi
        try rw [if_pos hlt] at hi
        cases hi
        exact .inl ⟨hxi.symm, rfl⟩
      · rename_i hxi
        exact .inr (.inr ⟨fun h => hxi h.symm, hil, hi⟩)
    · rename_i hil
      rw [List.length_set] at hil
      rw [List.getElem?_singleton, List.length_set] at hi
      split at hi
      · cases hi; exact .inr (.inl ⟨by omega, rfl⟩)
      · cases hi
  have howx : Owns ⟨.capsule c false, false⟩ c := ⟨rfl, .inl rfl⟩
  have hnx : ∀ c', ¬ Owns ⟨.capsule c true, false⟩ c' := by
    rintro c' ⟨_, h1⟩
    simp at h1
  have hna : ∀ c', Owns ⟨.array c, false⟩ c' → c' = c := by
    rintro c' ⟨_, h1⟩
    simp at h1
    exact h1.symm
  constructor
  · exact h.plain
  · exact h.buffers
  · simp only [ShareEnv.push, List.map_append, List.map_singleton, hobjs]
    rfl
  · intro o ho
    have hbx := h.bound _ (List.mem_of_getElem? hx)
    rcases List.mem_append.1 ho with ho | ho
    · rcases List.mem_or_eq_of_mem_set ho with ho | rfl
      · exact h.bound o ho
      · exact hbx
    · rw [List.mem_singleton.1 ho]
      exact hbx
  · exact h.cbound
  · intro u y hy
    rw [hcount]
    exact h.count u y hy
  · exact h.freed
  · intro i o c' z hi ho hz
    rcases hobj i o hi with ⟨_, rfl⟩ | ⟨_, rfl⟩ | ⟨_, _, hi⟩
    · exact absurd ho (hnx c')
    · rw [hna c' ho] at hz
      exact h.owned x _ c z hx howx hz
    · exact h.owned i o c' z hi ho hz
  · intro i j o o' c' hi hj ho ho'
    rcases hobj i o hi with ⟨_, rfl⟩ | ⟨rfl, rfl⟩ | ⟨hix, hil, hi⟩
    · exact absurd ho (hnx c')
    · have hc := hna c' ho
      subst hc
      rcases hobj j o' hj with ⟨_, rfl⟩ | ⟨rfl, rfl⟩ | ⟨hjx, hjl, hj⟩
      · exact absurd ho' (hnx _)
      · rfl
      · exact absurd (h.unique x j _ o' _ hx hj howx ho').symm hjx
    · rcases hobj j o' hj with ⟨_, rfl⟩ | ⟨rfl, rfl⟩ | ⟨hjx, hjl, hj⟩
      · exact absurd ho' (hnx _)
      · have hc := hna c' ho'
        subst hc
        rename_i hi'
        exact absurd (h.unique x i _ o _ hx hi' howx ho).symm hix
      · exact h.unique i j o o' c' hi hj ho ho'

/-- An empty capsule goes. -/
theorem ShareInv.drop_empty {bufs : List Bool} {s : ShState} {e : ShareEnv} (h : ShareInv bufs s e) {x c : Nat} (hx : s.objs[x]? = some ⟨.capsule c true, false⟩) :
    ShareInv bufs { s with objs := s.objs.set x ⟨.capsule c true, true⟩ } { e with objs := e.objs.set x ⟨.emptyCapsule, ctxTensor s.contexts c, true⟩ } := by
  have hlt := (List.getElem?_eq_some_iff.1 hx).1
  have hle : x < e.objs.length := by rw [h.objs]; simpa using hlt
  have hee : e.objs[x] = ⟨.emptyCapsule, ctxTensor s.contexts c, false⟩ := by
    have : e.objs[x]? = some ⟨.emptyCapsule, ctxTensor s.contexts c, false⟩ := by rw [h.objs, List.getElem?_map, hx]; rfl
    exact (List.getElem?_eq_some_iff.1 this).2
  have hobj : ∀ (i : Nat) o, (s.objs.set x ⟨.capsule c true, true⟩)[i]? = some o → o = ⟨.capsule c true, true⟩ ∨ s.objs[i]? = some o := by
    intro i o hi
    rw [List.getElem?_set] at hi
    split at hi
    · try rw [if_pos hlt] at hi
      cases hi; exact .inl rfl
    · exact .inr hi
  have hnx : ∀ c', ¬ Owns ⟨.capsule c true, true⟩ c' := by
    rintro c' ⟨h1, _⟩
    simp at h1
  constructor
  · exact h.plain
  · exact h.buffers
  · exact absObjs_set (o := ⟨.capsule c true, true⟩) h.objs
  · intro o ho
    rcases List.mem_or_eq_of_mem_set ho with ho | rfl
    · exact h.bound o ho
    · exact h.bound ⟨_, false⟩ (List.mem_of_getElem? hx)
  · exact h.cbound
  · intro u y hy
    rw [h.count u y hy]
    show _ = (e.objs.set x _).countP _
    rw [List.countP_set hle, hee]
    simp [refersTo]
  · exact h.freed
  · intro i o c' z hi ho hz
    rcases hobj i o hi with rfl | hi
    · exact absurd ho (hnx c')
    · exact h.owned i o c' z hi ho hz
  · intro i j o o' c' hi hj ho ho'
    rcases hobj i o hi with rfl | hi
    · exact absurd ho (hnx c')
    · rcases hobj j o' hj with rfl | hj
      · exact absurd ho' (hnx c')
      · exact h.unique i j o o' c' hi hj ho ho'

/-- An object with a reference goes; `cs'` are the contexts afterwards and `y'` the tensor. -/
theorem ShareInv.drop_ref {bufs : List Bool} {s : ShState} {e : ShareEnv} (h : ShareInv bufs s e) {x : Nat} {k : ShKind} (hx : s.objs[x]? = some ⟨k, false⟩)
    (hne : (absKind s.contexts k).1 ≠ .emptyCapsule) (cs' : List ShContext) (hcs : cs'.map ShContext.tensor = s.contexts.map ShContext.tensor)
    (hdel : ∀ c z, cs'[c]? = some z → s.contexts[c]? ≠ some z → Owns ⟨k, false⟩ c)
    {y y' : ShTensor} (hy : s.tensors[(absKind s.contexts k).2]? = some y) (hp : y'.plain = y.plain) (hb : y'.buffer = y.buffer)
    (hr : y'.refs = y.refs - 1) (hf : y'.freed = true ↔ y'.refs = 0) :
    ShareInv bufs ⟨s.tensors.set (absKind s.contexts k).2 y', cs', s.objs.set x ⟨k, true⟩⟩
      { e with objs := e.objs.set x ⟨(absKind s.contexts k).1, (absKind s.contexts k).2, true⟩ } := by
  generalize ht : (absKind s.contexts k).2 = t at hy ⊢
  have hlt := (List.getElem?_eq_some_iff.1 hx).1
  have htl := (List.getElem?_eq_some_iff.1 hy).1
  have hle : x < e.objs.length := by rw [h.objs]; simpa using hlt
  have hee : e.objs[x] = ⟨(absKind s.contexts k).1, t, false⟩ := by
    have : e.objs[x]? = some ⟨(absKind s.contexts k).1, t, false⟩ := by rw [h.objs, List.getElem?_map, hx, ← ht]; rfl
    exact (List.getElem?_eq_some_iff.1 this).2
  have hlen : cs'.length = s.contexts.length := by
    have := congrArg List.length hcs
    simpa using this
  have hobj : ∀ (i : Nat) o, (s.objs.set x ⟨k, true⟩)[i]? = some o → o = ⟨k, true⟩ ∨ (i ≠ x ∧ s.objs[i]? = some o) := by
    intro i o hi
    rw [List.getElem?_set] at hi
    split at hi
    · try rw [if_pos hlt] at hi
      cases hi; exact .inl rfl
    · rename_i hxi
      exact .inr ⟨fun h => hxi h.symm, hi⟩
  have hnx : ∀ c', ¬ Owns ⟨k, true⟩ c' := by
    rintro c' ⟨h1, _⟩
    simp at h1
  have hget : ∀ u w, (s.tensors.set t y')[u]? = some w → (u = t ∧ w = y') ∨ (u ≠ t ∧ s.tensors[u]? = some w) := by
    intro u w hw
    rw [List.getElem?_set] at hw
    split at hw
    · rename_i hu
      try rw [if_pos htl] at hw
      cases hw
      exact .inl ⟨hu.symm, rfl⟩
    · rename_i hu
      exact .inr ⟨fun h => hu h.symm, hw⟩
  have hcount : ∀ u, (e.objs.set x ⟨(absKind s.contexts k).1, t, true⟩).countP (refersTo u) = e.objs.countP (refersTo u) - if u = t then 1 else 0 := by
    intro u
    rw [List.countP_set hle, hee]
    by_cases hu : u = t
    · simp [refersTo, hu, hne]
    · simp [refersTo, hu, Ne.symm hu]
  constructor
  · show e.plain = _
    rw [h.plain]
    apply List.ext_getElem?
    intro i
    simp only [List.getElem?_map, List.getElem?_set]
    split
    · rename_i hi
      subst hi
      rw [hy]; try rw [if_pos htl]
      simp [hp]
    · rfl
  · intro u w hw
    rcases hget u w hw with ⟨rfl, rfl⟩ | ⟨_, hw⟩
    · rw [hb]; exact h.buffers _ _ hy
    · exact h.buffers _ _ hw
  · have := absObjs_set (o := ⟨k, true⟩) (x := x) h.objs
    show e.objs.set x _ = _
    rw [show (⟨(absKind s.contexts k).1, t, true⟩ : Share) = absObj s.contexts ⟨k, true⟩ by rw [← ht]; rfl, this]
    apply List.map_congr_left
    intro o _
    exact (absObj_congr hcs o).symm
  · intro o ho
    simp only [List.length_set]
    rw [hlen]
    rcases List.mem_or_eq_of_mem_set ho with ho | rfl
    · exact h.bound o ho
    · exact h.bound ⟨_, false⟩ (List.mem_of_getElem? hx)
  · intro c hc
    simp only [List.length_set]
    have : c.tensor ∈ cs'.map ShContext.tensor := List.mem_map_of_mem hc
    rw [hcs] at this
    obtain ⟨c', hc', he⟩ := List.mem_map.1 this
    rw [← he]
    exact h.cbound c' hc'
  · intro u w hw
    show _ = (e.objs.set x _).countP _
    rw [hcount]
    rcases hget u w hw with ⟨rfl, rfl⟩ | ⟨hu, hw⟩
    · rw [if_pos rfl, hr, h.count _ _ hy]
    · rw [if_neg hu, ← h.count _ _ hw]
      rfl
  · intro u w hw
    rcases hget u w hw with ⟨rfl, rfl⟩ | ⟨hu, hw⟩
    · exact hf
    · exact h.freed _ _ hw
  · intro i o c' z hi ho hz
    rcases hobj i o hi with rfl | ⟨hix, hi⟩
    · exact absurd ho (hnx c')
    · by_cases hzz : s.contexts[c']? = some z
      · exact h.owned i o c' z hi ho hzz
      · exact absurd (h.unique x i _ o c' hx hi (hdel c' z hz hzz) ho).symm hix
  · intro i j o o' c' hi hj ho ho'
    rcases hobj i o hi with rfl | ⟨_, hi⟩
    · exact absurd ho (hnx c')
    · rcases hobj j o' hj with rfl | ⟨_, hj⟩
      · exact absurd ho' (hnx c')
      · exact h.unique i j o o' c' hi hj ho ho'

theorem sh_release {s : ShState} {t : Nat} {y : ShTensor} {lock : Bool} (hy : s.tensors[t]? = some y) (hpos : 0 < y.refs) (hf : y.freed = false)
    (hl : lock = true ∨ y.buffer = false ∨ y.refs ≠ 1) :
    ∃ y', s.release t lock = .ok { s with tensors := s.tensors.set t y' } ∧ y'.plain = y.plain ∧ y'.buffer = y.buffer ∧ y'.refs = y.refs - 1 ∧ (y'.freed = true ↔ y'.refs = 0) := by
  unfold ShState.release
  rw [hy]
  simp only []
  rw [if_neg (by omega)]
  by_cases h1 : y.refs = 1
  · rw [if_pos h1, if_neg (by rcases hl with rfl | h | h <;> simp_all)]
    exact ⟨_, rfl, rfl, rfl, by simp [h1], by simp⟩
  · rw [if_neg h1]
    exact ⟨_, rfl, rfl, rfl, rfl, by simp [hf]; omega⟩

theorem inUse_iff {e : ShareEnv} {t : Nat} : e.InUse t ↔ 0 < e.objs.countP (refersTo t) := by
  rw [List.countP_pos_iff]
  unfold ShareEnv.InUse
  simp only [refersTo, Bool.and_eq_true, beq_iff_eq, Bool.not_eq_true', bne_iff_ne, and_assoc]

/-- A dropped array or capsule. -/
theorem ShareInv.delete {bufs : List Bool} {s : ShState} {e : ShareEnv} (h : ShareInv bufs s e) {x c : Nat} {k : ShKind} (hx : s.objs[x]? = some ⟨k, false⟩)
    (ho : Owns ⟨k, false⟩ c) (lock : Bool) :
    ∃ z, s.contexts[c]? = some z ∧ z.tensor = ctxTensor s.contexts c ∧
      ShState.delete { s with objs := s.objs.set x ⟨k, true⟩ } c lock =
        ShState.release { s with objs := s.objs.set x ⟨k, true⟩, contexts := s.contexts.set c { z with deleted := true } } (ctxTensor s.contexts c) lock := by
  have hb := h.bound _ (List.mem_of_getElem? hx)
  have hc : c < s.contexts.length := by rcases ho.2 with hk | hk <;> (simp only at hk; subst hk; exact hb)
  have hz := List.getElem?_eq_getElem hc
  have ht : s.contexts[c].tensor = ctxTensor s.contexts c := by
    unfold ctxTensor
    rw [List.getD_eq_getElem?_getD, List.getElem?_map, hz]
    rfl
  have hd := h.owned x _ c _ hx ho hz
  refine ⟨_, hz, ht, ?_⟩
  unfold ShState.delete
  simp only [hz, hd, ht]
  rfl

/-- An object that refers to a tensor is dropped. -/
theorem ShareInv.drop_step {bufs : List Bool} {s : ShState} {e : ShareEnv} (h : ShareInv bufs s e) {x : Nat} {k : ShKind} (hk : s.get x = some k)
    (hne : (absKind s.contexts k).1 ≠ .emptyCapsule) (lock : Bool) (s1 : ShState) (hs1 : s1.tensors = s.tensors ∧ s1.objs = s.objs.set x ⟨k, true⟩)
    (hcs : s1.contexts.map ShContext.tensor = s.contexts.map ShContext.tensor)
    (hdel : ∀ c z, s1.contexts[c]? = some z → s.contexts[c]? ≠ some z → Owns ⟨k, false⟩ c) :
    let t := (absKind s.contexts k).2
    let e' : ShareEnv := { e with objs := e.objs.set x ⟨(absKind s.contexts k).1, t, true⟩ }
    ((lock = true ∨ bufs[t]? = some false ∨ e'.InUse t) → ∃ s2, s1.release t lock = .ok s2 ∧ ShareInv bufs s2 e' ∧ s2.tensors.length = s.tensors.length) ∧
    (¬ (lock = true ∨ bufs[t]? = some false ∨ e'.InUse t) → ∃ m, s1.release t lock = .ub m) := by
  intro t e'
  obtain ⟨y, hy, hc, hpos, hf⟩ := h.tensor hk hne
  have hx := sh_get.1 hk
  have hbuf := h.buffers _ _ hy
  have hlt := (List.getElem?_eq_some_iff.1 hx).1
  have hle : x < e.objs.length := by rw [h.objs]; simpa using hlt
  have hee : e.objs[x] = ⟨(absKind s.contexts k).1, t, false⟩ := by
    have : e.objs[x]? = some ⟨(absKind s.contexts k).1, t, false⟩ := by rw [h.objs, List.getElem?_map, hx]; rfl
    exact (List.getElem?_eq_some_iff.1 this).2
  have hcnt : e'.objs.countP (refersTo t) = y.refs - 1 := by
    show (e.objs.set x _).countP _ = _
    rw [List.countP_set hle, hee, hc]
    simp [refersTo, hne, t]
  have huse : e'.InUse t ↔ y.refs ≠ 1 := by rw [inUse_iff, hcnt]; omega
  rw [huse, show bufs[t]? = some y.buffer from hbuf]
  have hy1 : s1.tensors[t]? = some y := by rw [hs1.1]; exact hy
  refine ⟨fun hl => ?_, fun hl => ?_⟩
  · obtain ⟨y', h1, h2, h3, h4, h5⟩ := sh_release (lock := lock) hy1 hpos hf (by simpa using hl)
    refine ⟨_, h1, ?_, by simp [hs1.1]⟩
    have := h.drop_ref hx hne s1.contexts hcs hdel hy h2 h3 h4 h5
    rw [hs1.1, hs1.2]
    exact this
  · simp only [not_or, Bool.not_eq_true, Option.some.injEq, Bool.not_eq_false, Classical.not_not] at hl
    unfold ShState.release
    rw [hy1]
    simp only []
    rw [if_neg (by omega), if_pos (by simpa using hl.2.2), if_pos (by simp [hl.1, hl.2.1])]
    exact ⟨_, rfl⟩

/-- The number of tensors a step makes. -/
def madeBy : ShOp → Nat
  | .make _ _ => 1
  | _ => 0

theorem ShareInv.step_drop {bufs : List Bool} {s : ShState} {e : ShareEnv} (h : ShareInv bufs s e) (x : Nat) (lock pending : Bool) :
    (DropsWithLock e bufs (.drop x lock pending) → ∃ o s', s.step (.drop x lock pending) = .ok (o, s') ∧ ShareInv bufs s' (e.step (.drop x lock pending)).2 ∧
      (DropsQuietly e (.drop x lock pending) → o = (e.step (.drop x lock pending)).1) ∧ s'.tensors.length = s.tensors.length) ∧
    (¬ DropsWithLock e bufs (.drop x lock pending) → ∃ m, s.step (.drop x lock pending) = .ub m) := by
  have hg := h.get x
  cases hk : s.get x with
  | none =>
    rw [hk] at hg
    simp only [Option.map_none] at hg
    simp only [ShState.step, ShareEnv.step, DropsWithLock, hk, hg]
    exact ⟨fun _ => ⟨_, _, rfl, h, fun _ => rfl, rfl⟩, fun hn => absurd (fun t ht => by cases ht) hn⟩
  | some k =>
    rw [hk] at hg
    simp only [Option.map_some] at hg
    have hx := sh_get.1 hk
    have hee : (e.step (.drop x lock pending)) = (.done, { e with objs := e.objs.set x ⟨(absKind s.contexts k).1, (absKind s.contexts k).2, true⟩ }) := by
      simp only [ShareEnv.step, hg]
    have hee' : (e.step (.drop x lock false)) = (.done, { e with objs := e.objs.set x ⟨(absKind s.contexts k).1, (absKind s.contexts k).2, true⟩ }) := by
      simp only [ShareEnv.step, hg]
    rw [hee]
    -- an object that is not an array
    have hdw : (absKind s.contexts k).1 ≠ .array → DropsWithLock e bufs (.drop x lock pending) := by
      intro hne t ht
      rw [hg] at ht
      cases hh : absKind s.contexts k with
      | mk a b => rw [hh] at ht hne; cases ht; exact absurd rfl hne
    have hsame : ∀ (c : Nat) z, s.contexts[c]? = some z → s.contexts[c]? ≠ some z → Owns ⟨k, false⟩ c := fun c z h1 h2 => absurd h1 h2
    cases k with
    | tensor t =>
      refine ⟨fun _ => ?_, fun hn => absurd (hdw (by simp [absKind])) hn⟩
      have hd := h.drop_step hk (by simp [absKind]) true { s with objs := s.objs.set x ⟨.tensor t, true⟩ } ⟨rfl, rfl⟩ rfl hsame
      obtain ⟨s2, h1, h2, h3⟩ := hd.1 (.inl rfl)
      refine ⟨.done, s2, ?_, h2, fun _ => rfl, h3⟩
      simp only [ShState.step, hk]
      rw [show ShState.release { s with objs := s.objs.set x ⟨.tensor t, true⟩ } t true = _ from h1]
      rfl
    | view t =>
      refine ⟨fun _ => ?_, fun hn => absurd (hdw (by simp [absKind])) hn⟩
      have hd := h.drop_step hk (by simp [absKind]) true { s with objs := s.objs.set x ⟨.view t, true⟩ } ⟨rfl, rfl⟩ rfl hsame
      obtain ⟨s2, h1, h2, h3⟩ := hd.1 (.inl rfl)
      refine ⟨.done, s2, ?_, h2, fun _ => rfl, h3⟩
      simp only [ShState.step, hk]
      rw [show ShState.release { s with objs := s.objs.set x ⟨.view t, true⟩ } t true = _ from h1]
      rfl
    | capsule c used =>
      cases used with
      | true =>
        refine ⟨fun _ => ?_, fun hn => absurd (hdw (by simp [absKind])) hn⟩
        refine ⟨if pending then .forgotten else .done, _, by simp only [ShState.step, hk], h.drop_empty hx, ?_, rfl⟩
        intro hq
        have := hq _ hg
        simp [this]
      | false =>
        refine ⟨fun _ => ?_, fun hn => absurd (hdw (by simp [absKind])) hn⟩
        have ho : Owns ⟨.capsule c false, false⟩ c := ⟨rfl, .inl rfl⟩
        obtain ⟨z, hz, hzt, hdl⟩ := h.delete hx ho true
        have hd := h.drop_step hk (by simp [absKind]) true { s with objs := s.objs.set x ⟨.capsule c false, true⟩, contexts := s.contexts.set c { z with deleted := true } } ⟨rfl, rfl⟩
          (map_tensor_set hz true) (by
            intro c' z' h1 h2
            simp only [List.getElem?_set] at h1
            split at h1
            · rename_i hcc; rw [← hcc]; exact ho
            · exact absurd h1 h2)
        obtain ⟨s2, h1, h2, h3⟩ := hd.1 (.inl rfl)
        refine ⟨.done, s2, ?_, h2, fun _ => rfl, h3⟩
        simp only [ShState.step, hk]
        rw [hdl, show ShState.release _ (ctxTensor s.contexts c) true = _ from h1]
        rfl
    | array c =>
      have ho : Owns ⟨.array c, false⟩ c := ⟨rfl, .inr rfl⟩
      obtain ⟨z, hz, hzt, hdl⟩ := h.delete hx ho lock
      have hd := h.drop_step hk (by simp [absKind]) lock { s with objs := s.objs.set x ⟨.array c, true⟩, contexts := s.contexts.set c { z with deleted := true } } ⟨rfl, rfl⟩
        (map_tensor_set hz true) (by
          intro c' z' h1 h2
          simp only [List.getElem?_set] at h1
          split at h1
          · rename_i hcc; rw [← hcc]; exact ho
          · exact absurd h1 h2)
      simp only [] at hd
      have hiff : DropsWithLock e bufs (.drop x lock pending) ↔ (lock = true ∨ bufs[(absKind s.contexts (.array c)).2]? = some false ∨
          ShareEnv.InUse { e with objs := e.objs.set x ⟨(absKind s.contexts (.array c)).1, (absKind s.contexts (.array c)).2, true⟩ } (absKind s.contexts (.array c)).2) := by
        unfold DropsWithLock
        constructor
        · intro hw
          have := hw _ hg
          rw [hee'] at this
          exact this
        · intro hw t ht
          rw [hg] at ht
          cases ht
          rw [hee']
          exact hw
      have hstep : s.step (.drop x lock pending) = (ShState.release { s with objs := s.objs.set x ⟨.array c, true⟩, contexts := s.contexts.set c { z with deleted := true } } (ctxTensor s.contexts c) lock).bind
          fun s2 => .ok (.done, s2) := by
        simp only [ShState.step, hk]
        rw [hdl]
      refine ⟨fun hw => ?_, fun hn => ?_⟩
      · obtain ⟨s2, h1, h2, h3⟩ := hd.1 (hiff.1 hw)
        refine ⟨.done, s2, ?_, h2, fun _ => rfl, h3⟩
        rw [hstep, show ShState.release _ (ctxTensor s.contexts c) lock = _ from h1]
        rfl
      · obtain ⟨m, h1⟩ := hd.2 (fun hc => hn (hiff.2 hc))
        refine ⟨m, ?_⟩
        rw [hstep, show ShState.release _ (ctxTensor s.contexts c) lock = _ from h1]
        rfl

theorem ShareInv.step {bufs : List Bool} {s : ShState} {e : ShareEnv} (h : ShareInv bufs s e) (a : ShOp)
    (hmk : ∀ b p, a = .make b p → bufs[s.tensors.length]? = some b) :
    (DropsWithLock e bufs a → ∃ o s', s.step a = .ok (o, s') ∧ ShareInv bufs s' (e.step a).2 ∧
      (DropsQuietly e a → o = (e.step a).1) ∧ s'.tensors.length = s.tensors.length + madeBy a) ∧
    (¬ DropsWithLock e bufs a → ∃ m, s.step a = .ub m) := by
  cases a with
  | drop x lock pending => exact h.step_drop x lock pending
  | make b p =>
    refine ⟨fun _ => ⟨_, _, rfl, h.push_tensor b p (hmk b p rfl), fun _ => rfl, by simp [madeBy, ShState.push]⟩, fun hn => absurd trivial hn⟩
  | alias x =>
    refine ⟨fun _ => ?_, fun hn => absurd trivial hn⟩
    have hg := h.get x
    cases hk : s.get x with
    | none => rw [hk] at hg; simp only [ShState.step, ShareEnv.step, hk, hg]; exact ⟨_, _, rfl, h, fun _ => rfl, rfl⟩
    | some k =>
      rw [hk] at hg
      simp only [ShState.step, ShareEnv.step, hk, hg, Option.map_some]
      cases k with
      | tensor t =>
        obtain ⟨y, hy, -, -, hf⟩ := h.tensor hk (by simp [absKind])
        simp only [absKind] at hy ⊢
        rw [sh_retain hy hf]
        exact ⟨_, _, rfl, h.push_ref hy hf (.tensor t) (.inl rfl), fun _ => rfl, by simp [ShState.push, madeBy]⟩
      | view t => exact ⟨_, _, rfl, h, fun _ => rfl, rfl⟩
      | capsule c u => cases u <;> exact ⟨_, _, rfl, h, fun _ => rfl, rfl⟩
      | array c => exact ⟨_, _, rfl, h, fun _ => rfl, rfl⟩
  | view x =>
    refine ⟨fun _ => ?_, fun hn => absurd trivial hn⟩
    have hg := h.get x
    cases hk : s.get x with
    | none => rw [hk] at hg; simp only [ShState.step, ShareEnv.step, hk, hg]; exact ⟨_, _, rfl, h, fun _ => rfl, rfl⟩
    | some k =>
      rw [hk] at hg
      simp only [ShState.step, ShareEnv.step, hk, hg, Option.map_some]
      cases k with
      | tensor t =>
        obtain ⟨y, hy, -, -, hf⟩ := h.tensor hk (by simp [absKind])
        simp only [absKind] at hy ⊢
        rw [sh_retain hy hf]
        exact ⟨_, _, rfl, h.push_ref hy hf (.view t) (.inr rfl), fun _ => rfl, by simp [ShState.push, madeBy]⟩
      | view t => exact ⟨_, _, rfl, h, fun _ => rfl, rfl⟩
      | capsule c u => cases u <;> exact ⟨_, _, rfl, h, fun _ => rfl, rfl⟩
      | array c => exact ⟨_, _, rfl, h, fun _ => rfl, rfl⟩
  | «export» x v =>
    refine ⟨fun _ => ?_, fun hn => absurd trivial hn⟩
    have hg := h.get x
    cases hk : s.get x with
    | none => rw [hk] at hg; simp only [ShState.step, ShareEnv.step, hk, hg]; exact ⟨_, _, rfl, h, fun _ => rfl, rfl⟩
    | some k =>
      rw [hk] at hg
      simp only [ShState.step, ShareEnv.step, hk, hg, Option.map_some]
      cases k with
      | tensor t =>
        obtain ⟨y, hy, -, -, hf⟩ := h.tensor hk (by simp [absKind])
        simp only [absKind] at hy ⊢
        rw [h.plain, List.getElem?_map, hy]
        simp only [Option.map_some, Option.some.injEq]
        split
        · rw [sh_retain hy hf]
          exact ⟨_, _, rfl, h.push_capsule hy hf, fun _ => rfl, by simp [ShState.push, madeBy]⟩
        · exact ⟨_, _, rfl, h, fun _ => rfl, rfl⟩
      | view t => exact ⟨_, _, rfl, h, fun _ => rfl, rfl⟩
      | capsule c u => cases u <;> exact ⟨_, _, rfl, h, fun _ => rfl, rfl⟩
      | array c => exact ⟨_, _, rfl, h, fun _ => rfl, rfl⟩
  | take x =>
    refine ⟨fun _ => ?_, fun hn => absurd trivial hn⟩
    have hg := h.get x
    cases hk : s.get x with
    | none => rw [hk] at hg; simp only [ShState.step, ShareEnv.step, hk, hg]; exact ⟨_, _, rfl, h, fun _ => rfl, rfl⟩
    | some k =>
      rw [hk] at hg
      simp only [ShState.step, ShareEnv.step, hk, hg, Option.map_some]
      cases k with
      | tensor t => exact ⟨_, _, rfl, h, fun _ => rfl, rfl⟩
      | view t => exact ⟨_, _, rfl, h, fun _ => rfl, rfl⟩
      | capsule c u =>
        cases u with
        | true => exact ⟨_, _, rfl, h, fun _ => rfl, rfl⟩
        | false => exact ⟨_, _, rfl, h.take (sh_get.1 hk), fun _ => rfl, rfl⟩
      | array c => exact ⟨_, _, rfl, h, fun _ => rfl, rfl⟩
  | read x =>
    refine ⟨fun _ => ?_, fun hn => absurd trivial hn⟩
    have hg := h.get x
    cases hk : s.get x with
    | none => rw [hk] at hg; simp only [ShState.step, ShareEnv.step, hk, hg]; exact ⟨_, _, rfl, h, fun _ => rfl, rfl⟩
    | some k =>
      rw [hk] at hg
      simp only [ShState.step, ShareEnv.step, hk, hg, Option.map_some]
      cases k with
      | tensor t => exact ⟨_, _, rfl, h, fun _ => rfl, rfl⟩
      | view t =>
        obtain ⟨y, hy, -, -, hf⟩ := h.tensor hk (by simp [absKind])
        simp only [absKind] at hy ⊢
        simp only [hy, hf]
        exact ⟨_, _, rfl, h, fun _ => rfl, rfl⟩
      | capsule c u => cases u <;> exact ⟨_, _, rfl, h, fun _ => rfl, rfl⟩
      | array c =>
        obtain ⟨y, hy, -, -, hf⟩ := h.tensor hk (by simp [absKind])
        have hx := sh_get.1 hk
        obtain ⟨z, hz, hzt, -⟩ := h.delete hx ⟨rfl, .inr rfl⟩ true
        have hzd := h.owned x _ c z hx ⟨rfl, .inr rfl⟩ hz
        simp only [absKind] at hy ⊢
        rw [← hzt] at hy
        simp only [hz, hzd, hy, hf]
        exact ⟨_, _, rfl, h, fun _ => by rw [hzt], rfl⟩

theorem ShareInv.start (bufs : List Bool) : ShareInv bufs ShState.start ShareEnv.start := by
  constructor <;> simp [ShState.start, ShareEnv.start]

theorem shareRun_append (e : ShareEnv) : ∀ (q r : List ShOp), (e.run (q ++ r)).2 = ((e.run q).2.run r).2 := by
  intro q
  induction q generalizing e with
  | nil => intro r; rfl
  | cons a q ih => intro r; exact ih (e.step a).2 r

theorem shareRun_snoc (e : ShareEnv) (q : List ShOp) (a : ShOp) : (e.run (q ++ [a])).2 = ((e.run q).2.step a).2 := by
  rw [shareRun_append]
  rfl

theorem buffersOf_append (q r : List ShOp) : buffersOf (q ++ r) = buffersOf q ++ buffersOf r := by
  simp [buffersOf]

theorem buffersOf_snoc_length (q : List ShOp) (a : ShOp) : (buffersOf (q ++ [a])).length = (buffersOf q).length + madeBy a := by
  rw [buffersOf_append, List.length_append]
  cases a <;> rfl

theorem share_make {prog q rest : List ShOp} {a : ShOp} (hp : prog = q ++ a :: rest) :
    ∀ b p, a = .make b p → (buffersOf prog)[(buffersOf q).length]? = some b := by
  rintro b p rfl
  rw [hp, buffersOf_append]
  simp [buffersOf]

theorem share_run (prog : List ShOp) :
    ∀ (rest q : List ShOp) (s : ShState), prog = q ++ rest → ShareInv (buffersOf prog) s (ShareEnv.start.run q).2 → s.tensors.length = (buffersOf q).length →
      (∀ p a, p ++ [a] <+: prog → q.length ≤ p.length → DropsWithLock (ShareEnv.start.run p).2 (buffersOf prog) a) →
      ∃ os s', s.run rest = .ok (os, s') ∧ ShareInv (buffersOf prog) s' (ShareEnv.start.run prog).2 ∧
        ((∀ p a, p ++ [a] <+: prog → q.length ≤ p.length → DropsQuietly (ShareEnv.start.run p).2 a) → os = ((ShareEnv.start.run q).2.run rest).1) := by
  intro rest
  induction rest with
  | nil =>
    intro q s hp h _ _
    rw [List.append_nil] at hp
    exact ⟨[], s, rfl, by rw [hp] at h ⊢; exact h, fun _ => rfl⟩
  | cons a rest ih =>
    intro q s hp h hl hd
    have hpre : q ++ [a] <+: prog := ⟨rest, by rw [hp]; simp⟩
    obtain ⟨o, s1, h1, h2, h3, h4⟩ := (h.step a (by rw [hl]; exact share_make hp)).1 (hd q a hpre (Nat.le_refl _))
    obtain ⟨os, s', h5, h6, h7⟩ := ih (q ++ [a]) s1 (by rw [hp]; simp) (by rw [shareRun_snoc]; exact h2) (by rw [h4, hl, buffersOf_snoc_length])
      (fun p b hb hlen => hd p b hb (by simp at hlen; omega))
    refine ⟨o :: os, s', ?_, h6, ?_⟩
    · simp only [ShState.run, h1, Res.bind, h5]
    · intro hq
      rw [h3 (hq q a hpre (Nat.le_refl _)), h7 (fun p b hb hlen => hq p b hb (by simp at hlen; omega)), shareRun_snoc]
      rfl

/-- The first step that drops without the lock. -/
theorem share_run_ub (prog : List ShOp) (p : List ShOp) (a : ShOp) (hpa : p ++ [a] <+: prog) (hn : ¬ DropsWithLock (ShareEnv.start.run p).2 (buffersOf prog) a) :
    ∀ (rest q : List ShOp) (s : ShState), prog = q ++ rest → ShareInv (buffersOf prog) s (ShareEnv.start.run q).2 → s.tensors.length = (buffersOf q).length →
      q.length ≤ p.length → ∃ m, s.run rest = .ub m := by
  intro rest
  induction rest with
  | nil =>
    intro q s hp h _ hlen
    have := hpa.length_le
    rw [hp] at this
    simp at this
    omega
  | cons b rest ih =>
    intro q s hp h hl hlen
    have hmk : ∀ b' p', b = .make b' p' → (buffersOf prog)[s.tensors.length]? = some b' := by rw [hl]; exact share_make hp
    by_cases hb : DropsWithLock (ShareEnv.start.run q).2 (buffersOf prog) b
    · obtain ⟨o, s1, h1, h2, h3, h4⟩ := (h.step b hmk).1 hb
      by_cases hqp : q.length = p.length
      · obtain ⟨r, hr⟩ := hpa
        have he : q ++ (b :: rest) = p ++ (a :: r) := by rw [← hp, ← hr]; simp
        obtain ⟨h5, h6⟩ := List.append_inj he hqp
        cases h6
        rw [h5] at hb
        exact absurd hb hn
      · obtain ⟨m, h5⟩ := ih (q ++ [b]) s1 (by rw [hp]; simp) (by rw [shareRun_snoc]; exact h2) (by rw [h4, hl, buffersOf_snoc_length]) (by simp; omega)
        exact ⟨m, by simp only [ShState.run, h1, Res.bind, h5]⟩
    · obtain ⟨m, h1⟩ := (h.step b hmk).2 hb
      exact ⟨m, by simp only [ShState.run, h1, Res.bind]⟩

theorem shareInv_freed {bufs : List Bool} {s : ShState} {e : ShareEnv} (h : ShareInv bufs s e) {t : Nat} {y : ShTensor} (hy : s.tensors[t]? = some y) :
    y.freed = true ↔ ¬ e.InUse t := by
  rw [h.freed t y hy, h.count t y hy, inUse_iff]
  omega

end Mlio
