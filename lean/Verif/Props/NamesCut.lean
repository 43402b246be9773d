import Verif.Props.CsvSchema
import Verif.Proofs.CsvReader

/-! # C35: names in the header that are longer than `max_field_length` -/

namespace Mlio
open Spec

/-- C35, names, with a limit for the length of fields: of every name in the header, no more than `m` bytes are kept, whatever `max_field_length_handling` is. -/
theorem C35_names_limit (o : CsvOpts) (rm : Machine Record) (h : Nat) (r : rm.σ) (rs : List rm.σ) (xs : List Record)
    (xss : List (List Record)) (hdr : Record) (ho : o.headerRow = some h) (hc : o.columnNames = [])
    (hh : Holds rm (r :: rs) (xs :: xss)) (hok : ∀ x ∈ xs :: xss, HeaderOk o h x) (hx : xs[h]? = some hdr)
    (m : Nat) (hm : o.tok.maxField = some m) (hdq : o.tok.delimiter ≠ o.tok.quote) (fs : List Field) (hne : fs ≠ [])
    (hf : ∀ f ∈ fs, f.Ok o.tok.delimiter o.tok.quote) (hp : hdr.payload = rowBytes o.tok.delimiter o.tok.quote fs) :
    (openAll o rm (CsvState.fresh o) ((r :: rs).map .ok)).2.names = fs.map fun f => o.namePrefix ++ f.value.take m := by
  have htok : tokenize { o.tok with maxField := none } (rowBytes o.tok.delimiter o.tok.quote fs) =
      (fs.map fun f => (f.value, false), .ok ()) := tokenize_row { o.tok with maxField := none } rfl hdq fs hne hf
  have h1 := (C12_field_limit o.tok m (rowBytes o.tok.delimiter o.tok.quote fs)).1
  have : ({ o.tok with maxField := some m } : TokParams) = o.tok := by rw [← hm]
  rw [this, htok, List.map_map] at h1
  rw [C35_names o rm h r rs xs xss hdr ho hc hh hok hx, hp, h1, List.map_map]
  rfl

/-- C35 is violated for names: if one of them is longer than the limit, the columns are not named as in the header, and nothing is reported.  Names that agree in
their first `m` bytes become equal. -/
theorem C35_names_cut_violated (o : CsvOpts) (rm : Machine Record) (h : Nat) (r : rm.σ) (rs : List rm.σ) (xs : List Record)
    (xss : List (List Record)) (hdr : Record) (ho : o.headerRow = some h) (hc : o.columnNames = [])
    (hh : Holds rm (r :: rs) (xs :: xss)) (hok : ∀ x ∈ xs :: xss, HeaderOk o h x) (hx : xs[h]? = some hdr)
    (m : Nat) (hm : o.tok.maxField = some m) (hdq : o.tok.delimiter ≠ o.tok.quote) (fs : List Field)
    (hf : ∀ f ∈ fs, f.Ok o.tok.delimiter o.tok.quote) (hp : hdr.payload = rowBytes o.tok.delimiter o.tok.quote fs)
    (f : Field) (hmem : f ∈ fs) (hlong : m < f.value.length) :
    (openAll o rm (CsvState.fresh o) ((r :: rs).map .ok)).2.names ≠ (fs.map fun f => o.namePrefix ++ f.value) ∧
    ∀ (i j : Nat) (a b : Field), fs[i]? = some a → fs[j]? = some b → a.value.take m = b.value.take m →
      (openAll o rm (CsvState.fresh o) ((r :: rs).map .ok)).2.names[i]? = (openAll o rm (CsvState.fresh o) ((r :: rs).map .ok)).2.names[j]? := by
  rw [C35_names_limit o rm h r rs xs xss hdr ho hc hh hok hx m hm hdq fs (List.ne_nil_of_mem hmem) hf hp]
  refine ⟨fun he => ?_, fun i j a b ha hb hab => by simp [ha, hb, hab]⟩
  have := List.map_inj_left.1 he f hmem
  have := congrArg List.length this
  simp at this
  omega

/-- The header `ab,ac` with a limit of one byte: both columns are called `a`. -/
example : (openAll { tok := { maxField := some 1 } } demoMachine (CsvState.fresh { tok := { maxField := some 1 } })
    ([[⟨0, [97, 98, 44, 97, 99]⟩, ⟨0, [49, 44, 50]⟩]].map .ok)).2.names = [[97], [97]] :=
  C35_names_limit { tok := { maxField := some 1 } } demoMachine 0 [⟨0, [97, 98, 44, 97, 99]⟩, ⟨0, [49, 44, 50]⟩] []
    [⟨0, [97, 98, 44, 97, 99]⟩, ⟨0, [49, 44, 50]⟩] [] ⟨0, [97, 98, 44, 97, 99]⟩ rfl rfl ⟨listMachine_yields _ _, trivial⟩
    (by intro xs hx hdr hh; simp at hx; subst hx; simp at hh; subst hh; decide) rfl 1 rfl (by decide) [⟨[97, 98], false⟩, ⟨[97, 99], false⟩] (by simp)
    (by intro f hf; simp at hf; rcases hf with rfl | rfl <;> (unfold Field.Ok; decide)) rfl

end Mlio
