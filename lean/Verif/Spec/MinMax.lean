import Verif.Basic

/-!
# Reference notions for extrema and sorted prefixes
-/

namespace Sprout.Spec
variable {α : Type}

/-- index `r` holds the first smallest element of `xs` -/
def FirstMin (comp : α → α → Bool) (xs : List α) (r : Nat) : Prop :=
  ∃ x, xs[r]? = some x ∧ (∀ y ∈ xs, comp y x = false) ∧ ∀ i y, i < r → xs[i]? = some y → comp x y = true

/-- index `r` holds the first largest element of `xs` -/
def FirstMax (comp : α → α → Bool) (xs : List α) (r : Nat) : Prop :=
  ∃ x, xs[r]? = some x ∧ (∀ y ∈ xs, comp x y = false) ∧ ∀ i y, i < r → xs[i]? = some y → comp y x = true

/-- index `r` holds the last largest element of `xs` -/
def LastMax (comp : α → α → Bool) (xs : List α) (r : Nat) : Prop :=
  ∃ x, xs[r]? = some x ∧ (∀ y ∈ xs, comp x y = false) ∧ ∀ i y, r < i → xs[i]? = some y → comp y x = true

/-- `xs.take r` is the longest sorted prefix -/
def SortedUntil (comp : α → α → Bool) (xs : List α) (r : Nat) : Prop :=
  r ≤ xs.length ∧ SortedBy comp (xs.take r) ∧ (r < xs.length → ¬ SortedBy comp (xs.take (r + 1)))

end Sprout.Spec
