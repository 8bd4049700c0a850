import Verif.Proofs.Sort4

/-!
# C01: sort orders every range

For every strict weak order, block and segment, and for every value of the insertion-sort threshold
`limit` (the code uses 30 or 6 depending on the element type): the call terminates, never leaves the
segment (`some`), permutes it and sorts it; nothing outside changes.
-/

namespace Sprout
variable {α : Type}

theorem C01_sort (limit : Nat) (comp : α → α → Bool) (hc : StrictWeak comp) (pre xs post : List α) :
    ∃ ys, sort limit comp (pre ++ xs ++ post) pre.length (pre.length + xs.length) = some (pre ++ ys ++ post) ∧
      ys.Perm xs ∧ SortedBy comp ys := by
  obtain ⟨r, h1, h2, h3⟩ := sort_spec hc limit _ (pre ++ xs ++ post) pre.length (pre.length + xs.length) rfl (by omega) (by simp)
  obtain ⟨ys, rfl, h5⟩ := h2.segment
  refine ⟨ys, h1, h5, ?_⟩
  rw [← h5.length_eq] at h3
  exact sortedAt_segment.mp h3

/-- With a total order on the values (any two incomparable elements equal) the result is the unique
sorted rearrangement. -/
theorem C01_sort_unique (limit : Nat) (comp : α → α → Bool) (hc : StrictWeak comp)
    (htot : ∀ a b, comp a b = false → comp b a = false → a = b) (pre xs post ys : List α)
    (hp : ys.Perm xs) (hs : SortedBy comp ys) :
    sort limit comp (pre ++ xs ++ post) pre.length (pre.length + xs.length) = some (pre ++ ys ++ post) := by
  obtain ⟨zs, h1, h2, h3⟩ := C01_sort limit comp hc pre xs post
  have : zs = ys := (h2.trans hp.symm).eq_of_pairwise (fun a b _ _ h4 h5 => htot a b h5 h4) h3 hs
  rw [h1, this]

/-! Non-trivial instances: six elements with threshold 0, so that the partitioning code is used, inside a larger block. -/

theorem strictWeak_ltNat : StrictWeak (fun a b : Nat => decide (a < b)) :=
  ⟨by simp, fun a b c h1 h2 => by simp at *; omega, fun a b c h => by simp at *; omega⟩

example : sort 0 (fun a b : Nat => decide (a < b)) [9, 5, 3, 8, 3, 1, 4, 1, 0] 1 8 = some [9, 1, 1, 3, 3, 4, 5, 8, 0] :=
  C01_sort_unique 0 _ strictWeak_ltNat (fun a b h1 h2 => by simp at *; omega) [9] [5, 3, 8, 3, 1, 4, 1] [0] [1, 1, 3, 3, 4, 5, 8] (by decide) (by unfold SortedBy; decide)

example : ∃ ys, sort 30 (fun a b : Nat × Nat => decide (a.1 < b.1)) [(9, 0), (2, 0), (1, 0), (2, 1), (0, 7)] 1 4 = some ([(9, 0)] ++ ys ++ [(0, 7)]) ∧
    ys.Perm [(2, 0), (1, 0), (2, 1)] ∧ SortedBy (fun a b : Nat × Nat => decide (a.1 < b.1)) ys :=
  C01_sort 30 _ ⟨by simp, fun a b c h1 h2 => by simp at *; omega, fun a b c h => by simp at *; omega⟩ [(9, 0)] [(2, 0), (1, 0), (2, 1)] [(0, 7)]

end Sprout
