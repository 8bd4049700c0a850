import Verif.Spec.FixedAlg

/-! # Algorithms that return windows: what they are to give -/

namespace Sprout.FitAlg

open ContOp

variable {α : Type}

/-- the result is a window, all of whose elements exist, that begins where the container begins and shows `w` -/
def Fits (r : Option (Cont α)) (c : Cont α) (w : List α) : Prop :=
  ∃ x, r = some x ∧ x.InBounds ∧ x.beginOff = c.beginOff ∧ x.vis = w

/-- the result is a window, all of whose elements exist, that ends where the container ends and shows `w` -/
def FitsEnd (r : Option (Cont α)) (c : Cont α) (w : List α) : Prop :=
  ∃ x, r = some x ∧ x.InBounds ∧ x.endOff = c.endOff ∧ x.vis = w

/-- an equivalence relation -/
structure Equiv (p : α → α → Bool) : Prop where
  refl : ∀ a, p a a = true
  symm : ∀ a b, p a b = true → p b a = true
  trans : ∀ a b c, p a b = true → p b c = true → p a c = true

end Sprout.FitAlg
