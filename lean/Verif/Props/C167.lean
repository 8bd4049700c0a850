import Verif.Model.Jointed

/-!
# C167: copies of joined ranges have room for all elements

Refuted in three of five cases.
-/

namespace Sprout
open Jointed

/-- the number of elements -/
def rngCount : Rng → Nat
  | .arr n => n
  | .dyn n => n
  | .adapted r => rngCount r
  | .joint l r => rngCount l + rngCount r

/-- a copy can be made and has room for all elements -/
def Room (r : Rng) : Prop := ∃ t, copied r = some t ∧ ∀ n, t = .arr n → rngCount r ≤ n

/-- the full statement -/
def C167_statement : Prop := ∀ r, Room r

/-- no containers without a static size in it -/
def AllStatic : Rng → Prop
  | .arr _ => True
  | .dyn _ => False
  | .adapted r => AllStatic r
  | .joint l r => AllStatic l ∧ AllStatic r

/-- the static size is the number of elements, if all parts have a static size -/
theorem C167_static : ∀ r, AllStatic r → staticSize r = some (rngCount r)
  | .arr _, _ => rfl
  | .dyn _, h => h.elim
  | .adapted r, h => C167_static r h
  | .joint l r, h => by simp [staticSize, rngCount, C167_static l h.1, C167_static r h.2]

/-- otherwise it is that of the parts that have one: a vector with elements joined with an array has a static size that is too small -/
theorem C167_static_refuted (m n : Nat) (h : 0 < m) : staticSize (.joint (.dyn m) (.arr n)) = some n ∧ staticSize (.joint (.arr n) (.dyn m)) = some n ∧
    n < rngCount (.joint (.dyn m) (.arr n)) := by
  refine ⟨rfl, rfl, ?_⟩
  simp [rngCount]; omega

/-- room for an adapted or joined range with static sizes and an array on the right, in an array of exactly this size. What is missing are all other
ranges, see the refutations. -/
theorem C167_partial (l : Rng) (n : Nat) (hl : AllStatic l) (hr : rebindable l = false) :
    copied (.joint l (.arr n)) = some (.arr (rngCount l + n)) ∧ Room (.joint l (.arr n)) := by
  have h : copied (.joint l (.arr n)) = some (.arr (rngCount l + n)) := by
    have hs := C167_static (.joint l (.arr n)) ⟨hl, trivial⟩
    rw [copied, if_neg (by simp [hr]), if_pos (by rfl), hs]
    rfl
  refine ⟨h, _, h, ?_⟩
  rintro k ⟨⟩
  exact Nat.le_refl _

/-- room for a container without a static size on the left and anything but an array on the right -/
theorem C167_dynamic_partial (m : Nat) (r : Rng) (hr : rebindable r = false) : Room (.joint (.dyn m) r) := by
  refine ⟨.dyn, ?_, by simp⟩
  rw [copied, if_neg (by simp [rebindable]), if_neg (by simp [hr])]
  rfl

/-- an array on the left: there is no type of copies -/
theorem C167_array_refuted (n : Nat) (r : Rng) : copied (.joint (.arr n) r) = none ∧ ¬ Room (.joint (.arr n) r) := by
  have h : copied (.joint (.arr n) r) = none := by
    rw [copied, if_pos (by rfl)]
    cases staticSize (.joint (.arr n) r) <;> rfl
  refine ⟨h, ?_⟩
  rintro ⟨t, ht, -⟩
  rw [h] at ht
  cases ht

/-- two adapted arrays: the copy has the size of the left one -/
theorem C167_adapted_refuted (m n : Nat) (h : 0 < n) : copied (.joint (.adapted (.arr m)) (.adapted (.arr n))) = some (.arr m) ∧
    ¬ Room (.joint (.adapted (.arr m)) (.adapted (.arr n))) := by
  refine ⟨rfl, ?_⟩
  rintro ⟨t, ht, hn⟩
  cases ht
  have := hn m rfl
  simp [rngCount] at this
  omega

/-- a vector with elements on the left and an array on the right: the copy has the size of the array -/
theorem C167_vector_refuted (m n : Nat) (h : 0 < m) : copied (.joint (.dyn m) (.arr n)) = some (.arr n) ∧ ¬ Room (.joint (.dyn m) (.arr n)) := by
  refine ⟨rfl, ?_⟩
  rintro ⟨t, ht, hn⟩
  cases ht
  have := hn n rfl
  simp [rngCount] at this
  omega

/-- so the full statement does not hold -/
theorem C167_false : ¬ C167_statement := fun h => (C167_array_refuted 1 (.arr 1)).2 (h _)

example : copied (.joint (.adapted (.arr 3)) (.arr 4)) = some (.arr 7) ∧ copied (.adapted (.joint (.adapted (.arr 3)) (.arr 4))) = some (.arr 7) := by decide

end Sprout
