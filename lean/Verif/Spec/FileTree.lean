import Verif.Spec.Stores
import Verif.Model.FileTree

/-!
# What listing a directory tree is meant to do
-/

namespace Mlio.Spec

/-- The path of what is called `name` in a directory: a slash in between, unless there is one already. -/
def below (dir name : Bytes) : Bytes := if [47] <:+ dir then dir ++ name else dir ++ [47] ++ name

/-- The files at and below a path, in the order of the file system. -/
def filesOf : Bytes → FsNode → List Bytes
  | p, .file => [p]
  | p, .dir es => es.attach.flatMap fun e => filesOf (below p e.1.1) e.1.2
  | _, _ => []
termination_by _ x => sizeOf x
decreasing_by
  have := List.sizeOf_lt_of_mem e.2
  have h : sizeOf e.1 = 1 + sizeOf e.1.1 + sizeOf e.1.2 := rfl
  simp only [FsNode.dir.sizeOf_spec]
  omega

/-- Something at or below cannot be read. -/
inductive Unreadable : FsNode → Prop
  | here : Unreadable .failing
  | inside (es : List (Bytes × FsNode)) (e : Bytes × FsNode) : e ∈ es → Unreadable e.2 → Unreadable (.dir es)

/-- The same tree, with the entries of directories enumerated in another order. -/
inductive Reordered : FsNode → FsNode → Prop
  | same (x : FsNode) : Reordered x x
  | dir (es es' : List (Bytes × FsNode)) (other : Bytes × FsNode → FsNode) : es'.Perm es →
      (∀ e ∈ es, Reordered e.2 (other e)) → Reordered (.dir es) (.dir (es'.map fun e => (e.1, other e)))

/-- Of any two names in the list one comes first. -/
def NoTies (lt : Bytes → Bytes → Bool) (es : List (Bytes × FsNode)) : Prop :=
  es.Pairwise fun a b => lt a.1 b.1 = true ∨ lt b.1 a.1 = true

/-- That is so in every directory. -/
inductive Ordered (lt : Bytes → Bytes → Bool) : FsNode → Prop
  | file : Ordered lt .file
  | special : Ordered lt .special
  | broken : Ordered lt .broken
  | failing : Ordered lt .failing
  | dir (es : List (Bytes × FsNode)) : NoTies lt es → (∀ e ∈ es, Ordered lt e.2) → Ordered lt (.dir es)

/-- The list of the files at and below a path, directory by directory in the order of the names. -/
inductive Listing (lt : Bytes → Bytes → Bool) : Bytes → FsNode → List Bytes → Prop
  | file (p : Bytes) : Listing lt p .file [p]
  | special (p : Bytes) : Listing lt p .special []
  | broken (p : Bytes) : Listing lt p .broken []
  | dir (p : Bytes) (es es' : List (Bytes × FsNode)) (list : Bytes × FsNode → List Bytes) : es'.Perm es →
      Sorted (fun a b => lt a.1 b.1) es' → (∀ e ∈ es, Listing lt (below p e.1) e.2 (list e)) →
      Listing lt p (.dir es) (es'.flatMap list)

/-- The same for a list of paths. -/
def Listings (lt : Bytes → Bytes → Bool) (roots : List (Bytes × FsNode)) (us : List Bytes) : Prop :=
  ∃ (roots' : List (Bytes × FsNode)) (list : Bytes × FsNode → List Bytes), roots'.Perm roots ∧
    Sorted (fun a b => lt a.1 b.1) roots' ∧ (∀ r ∈ roots, Listing lt r.1 r.2 (list r)) ∧ us = roots'.flatMap list

/-- The name has neither white space nor NUL in it. -/
def PlainName (name : Bytes) : Prop := ∀ c ∈ name, c ≠ 0 ∧ c ≠ 32 ∧ ¬ (9 ≤ c.toNat ∧ c.toNat ≤ 13)

/-- Names that are distinct, and have neither white space nor NUL in them. -/
def PlainNames (es : List (Bytes × FsNode)) : Prop :=
  (es.map Prod.fst).Pairwise (· ≠ ·) ∧ ∀ e ∈ es, PlainName e.1

/-- The names in every directory are such. -/
inductive PlainTree : FsNode → Prop
  | file : PlainTree .file
  | special : PlainTree .special
  | broken : PlainTree .broken
  | failing : PlainTree .failing
  | dir (es : List (Bytes × FsNode)) : PlainNames es → (∀ e ∈ es, PlainTree e.2) → PlainTree (.dir es)

end Mlio.Spec
