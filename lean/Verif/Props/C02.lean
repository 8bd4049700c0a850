import Verif.Proofs.StableSort
import Verif.Props.C07

/-!
# C02: stable_sort is the stable sort

False for the code: `detail::insertion_sort` (detail/insertion_sort.hpp 43) calls the defective
`sprout::move_backward` (see C43) whenever an element is smaller than the first one of its chunk.
Proved instead:
* whenever `stable_sort` returns, the result is the stable sorted arrangement (`C02_stable_sort_partial`);
* for fewer than 15 elements it returns exactly if no element is smaller than the first;
* with a working `move_backward` (for instance `copy_backward`) the property holds in full.
-/

namespace Sprout
open Spec
variable {α : Type}

/-- The full property, as a statement about a sorting function. -/
def StableSortFull (f : (Nat → Nat → Bool) → List Nat → Nat → Nat → Option (List Nat)) : Prop :=
  ∀ comp, StrictWeak comp → ∀ pre xs post : List Nat, ∃ zs,
    f comp (pre ++ xs ++ post) pre.length (pre.length + xs.length) = some (pre ++ zs ++ post) ∧ StableSorted comp xs zs

theorem C02_stable_sort_false : ¬ StableSortFull stableSort := by
  intro h
  obtain ⟨zs, h1, -⟩ := h (fun a b => decide (a < b)) ⟨by simp, fun a b c h1 h2 => by simp at *; omega, fun a b c h => by simp at *; omega⟩ [] [2, 1] []
  unfold stableSort at h1
  rw [inplaceStableSort, if_pos (by decide)] at h1
  unfold insertionSort at h1
  rw [if_neg (by decide), insertionSortLoop, if_neg (by decide)] at h1
  have : insertOne moveBackward (fun a b : Nat => decide (a < b)) [2, 1] 0 1 = none := by
    unfold insertOne
    simp [cmpAt, rd, moveBackward_diverges]
  simp only [List.nil_append, List.append_nil, List.length_nil, Nat.zero_add] at h1
  rw [this] at h1
  cases h1

/-- Missing compared to the full property: that a result is always produced. -/
theorem C02_stable_sort_partial (comp : α → α → Bool) (hc : StrictWeak comp) (pre xs post r : List α)
    (h : stableSort comp (pre ++ xs ++ post) pre.length (pre.length + xs.length) = some r) :
    ∃ zs, r = pre ++ zs ++ post ∧ StableSorted comp xs zs ∧ zs.Perm xs := by
  rcases inplaceStableSort_spec moveUp_moveBackward hc _ pre xs post rfl with ⟨zs, h1, h2, -⟩ | ⟨-, h1⟩
  · unfold stableSort at h
    rw [h1] at h
    cases h
    exact ⟨zs, rfl, h2, StableSorted.perm hc h2.2⟩
  · unfold stableSort at h
    rw [h1] at h
    cases h

/-- Exactly when a short range is handled at all. -/
theorem C02_stable_sort_defined (comp : α → α → Bool) (hc : StrictWeak comp) (pre xs post : List α) (x : α) (hl : (x :: xs).length < 15) :
    (stableSort comp (pre ++ (x :: xs) ++ post) pre.length (pre.length + (x :: xs).length)).isSome = true ↔ ∀ y ∈ xs, comp y x = false := by
  unfold stableSort
  rw [inplaceStableSort, Nat.add_sub_cancel_left, if_pos hl]
  unfold insertionSort
  rw [if_neg (by simp)]
  have h := insertionSortLoop_moveBackward hc pre post x xs [x] [x] ⟨by simp [SortedBy], fun _ => rfl⟩ rfl
  rw [show pre ++ [x] ++ (xs ++ post) = pre ++ (x :: xs) ++ post by simp, show pre.length + [x].length + xs.length = pre.length + (x :: xs).length by simp; omega] at h
  exact h

/-- With a working range move the algorithm (recursion, insertion sort, in-place merge) is the stable sort. -/
theorem C02_stable_sort_repaired (comp : α → α → Bool) (hc : StrictWeak comp) (pre xs post : List α) :
    ∃ zs, inplaceStableSort copyBackward comp (pre ++ xs ++ post) pre.length (pre.length + xs.length) = some (pre ++ zs ++ post) ∧
      StableSorted comp xs zs ∧ zs.Perm xs := by
  rcases inplaceStableSort_spec moveUp_copyBackward hc _ pre xs post rfl with ⟨zs, h1, h2, -⟩ | ⟨h, -⟩
  · exact ⟨zs, h1, h2, StableSorted.perm hc h2.2⟩
  · exact h.elim

theorem C02_repaired_full : StableSortFull (inplaceStableSort copyBackward) := by
  intro comp hc pre xs post
  obtain ⟨zs, h1, h2, -⟩ := C02_stable_sort_repaired comp hc pre xs post
  exact ⟨zs, h1, h2⟩

/-! Non-trivial instances: ties, and the smallest key first, so the code does return. -/

example : (stableSort keyLt ([(9, 9)] ++ ((1, 0) :: [(3, 0), (2, 0), (1, 1), (2, 1)]) ++ [(0, 0)]) 1 6).isSome = true :=
  (C02_stable_sort_defined keyLt strictWeak_keyLt [(9, 9)] [(3, 0), (2, 0), (1, 1), (2, 1)] [(0, 0)] (1, 0) (by decide)).mpr (by decide)
example : (stableSort keyLt ([] ++ ((2, 0) :: [(3, 0), (1, 1)]) ++ []) 0 3).isSome ≠ true := by
  rw [Ne, show (3 : Nat) = ([] : List (Nat × Nat)).length + ((2, 0) :: [(3, 0), (1, 1)]).length from rfl]
  exact fun h => absurd ((C02_stable_sort_defined keyLt strictWeak_keyLt [] [(3, 0), (1, 1)] [] (2, 0) (by decide)).mp h) (by decide)
example : ∃ zs, inplaceStableSort copyBackward keyLt ([] ++ [(2, 0), (3, 0), (1, 1), (2, 1)] ++ []) 0 4 = some ([] ++ zs ++ []) ∧
    StableSorted keyLt [(2, 0), (3, 0), (1, 1), (2, 1)] zs ∧ zs.Perm [(2, 0), (3, 0), (1, 1), (2, 1)] :=
  C02_stable_sort_repaired keyLt strictWeak_keyLt [] [(2, 0), (3, 0), (1, 1), (2, 1)] []

end Sprout
