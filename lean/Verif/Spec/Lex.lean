import Verif.Basic

/-!
# Dictionary order
-/

namespace Sprout.Spec
variable {α : Type}

/-- Equivalence under `comp`: neither is less. -/
def Equiv (comp : α → α → Bool) (a b : α) : Prop := comp a b = false ∧ comp b a = false

/-- The dictionary order induced by `comp`: `b` is a proper extension of `a`'s classes, or at the first
position where they are not equivalent `a` has the smaller element. -/
def LexLt (comp : α → α → Bool) (a b : List α) : Prop :=
  ∃ k, k ≤ a.length ∧ (∀ i x y, i < k → a[i]? = some x → b[i]? = some y → Equiv comp x y) ∧ k ≤ b.length ∧
    ((k = a.length ∧ k < b.length) ∨ ∃ x y, a[k]? = some x ∧ b[k]? = some y ∧ comp x y = true)

end Sprout.Spec
