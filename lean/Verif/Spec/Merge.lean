import Verif.Basic

/-!
# Reference notions for merging, stable sorting and set operations
-/

namespace Sprout.Spec
variable {α : Type}

/-- `xs` is stored at position `s` of the block `m`. -/
def Stored (m : List α) (s : Nat) (xs : List α) : Prop := ∀ i, i < xs.length → m[s + i]? = xs[i]?

/-- the elements of `xs` equivalent to `v`, in order -/
def cls (comp : α → α → Bool) (v : α) (xs : List α) : List α := xs.filter (fun x => !comp x v && !comp v x)

/-- how often the key of `v` occurs -/
def mult (comp : α → α → Bool) (v : α) (xs : List α) : Nat := (cls comp v xs).length

/-- `zs` is the stable sorted arrangement of `src`: sorted, and each class of equivalent elements is
the same sequence as in `src` -/
def StableSorted (comp : α → α → Bool) (src zs : List α) : Prop :=
  SortedBy comp zs ∧ ∀ v, cls comp v zs = cls comp v src

end Sprout.Spec
