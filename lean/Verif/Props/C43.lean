import Verif.Props.C09

/-!
# C43: move_backward moves like copy_backward

False for the code: sprout/algorithm/cxx14/move_backward.hpp 25-30 decrements `first` instead of
`last`, so the loop runs off the front of the block for every non-empty range.
-/

namespace Sprout
variable {α : Type}

/-- `move_backward` has no defined result on any non-empty range. -/
theorem C43_move_backward_undefined (m : List α) (first last result : Nat) (h : first < last) :
    moveBackward m first last result = none := moveBackward_diverges first m last result h

/-- What `move_backward` should do. -/
def MoveBackwardFull (f : List Nat → Nat → Nat → Nat → Option (List Nat × Nat)) : Prop :=
  ∀ (m A xs B : List Nat) (d : Nat), m = A ++ xs ++ B → (d + xs.length ≤ A.length ∨ A.length ≤ d) →
    d + xs.length ≤ m.length → f m A.length (A.length + xs.length) (d + xs.length) = some (Spec.overwrite m d xs, d)

theorem C43_move_backward_false : ¬ MoveBackwardFull moveBackward := by
  intro h
  have := h [0, 1, 2] [0] [1] [2] 2 rfl (by decide) (by decide)
  rw [moveBackward_diverges _ _ _ _ (by simp)] at this
  simp at this

/-- ... whereas `copy_backward` satisfies that specification. -/
theorem C43_copy_backward_full : MoveBackwardFull copyBackward := fun m A xs B d => C09_copy_backward m A xs B d

/-- Missing compared to `MoveBackwardFull`: all non-empty ranges. -/
theorem C43_move_backward_partial (m : List α) (first result : Nat) :
    moveBackward m first first result = some (m, result) := by
  rw [moveBackward, if_pos rfl]

/-- `move` (same loop as `copy`). -/
theorem C43_move (m A xs B : List α) (d : Nat) (hm : m = A ++ xs ++ B)
    (hd : d ≤ A.length ∨ A.length + xs.length ≤ d) (hr : d + xs.length ≤ m.length) :
    moveFwd m A.length (A.length + xs.length) d = some (Spec.overwrite m d xs, d + xs.length) :=
  C09_copy m A xs B d hm hd hr

example : moveFwd [9, 9, 1, 2, 3] 2 5 1 = some ([9, 1, 2, 3, 3], 4) :=
  C43_move _ [9, 9] [1, 2, 3] [] 1 rfl (by decide) (by decide)

end Sprout
