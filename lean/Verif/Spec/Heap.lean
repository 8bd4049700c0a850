import Verif.Basic

/-!
# Heaps, stated on plain lists
-/

namespace Sprout.Spec
variable {α : Type}

/-- max-heap: no element compares greater than its parent -/
def IsHeap (comp : α → α → Bool) (xs : List α) : Prop :=
  ∀ i (_ : 0 < i) (hi : i < xs.length), comp (xs[(i - 1) / 2]'(by omega)) xs[i] = false

instance (comp : α → α → Bool) (xs : List α) : Decidable (IsHeap comp xs) :=
  decidable_of_iff (∀ i, (hi : i < xs.length) → 0 < i → comp (xs[(i - 1) / 2]'(by omega)) xs[i] = false)
    ⟨fun h i h0 hi => h i hi h0, fun h i hi h0 => h i h0 hi⟩

end Sprout.Spec
