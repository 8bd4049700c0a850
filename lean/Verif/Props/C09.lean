import Verif.Proofs.Moves

/-!
# C09: reverse and the element-moving primitives

`Spec.overwrite m d ys` is the block `m` with `ys` stored from position `d` on, everything else as
before. (`move_backward` is the subject of C43.)
-/

namespace Sprout
variable {α : Type}

theorem C09_reverse (pre xs post : List α) :
    reverse (pre ++ xs ++ post) pre.length (pre.length + xs.length) = some (pre ++ xs.reverse ++ post) :=
  reverse_spec _ pre xs post rfl

/-- source `xs` at `|A|`, destination `d` disjoint from it -/
theorem C09_reverse_copy (m A xs B : List α) (d : Nat) (hm : m = A ++ xs ++ B)
    (hd : d + xs.length ≤ A.length ∨ A.length + xs.length ≤ d) (hr : d + xs.length ≤ m.length) :
    reverseCopy m A.length (A.length + xs.length) d
      = some (Spec.overwrite m d xs.reverse, d + xs.length) :=
  reverseCopy_spec _ xs m A.length d rfl (hm ▸ Seg.of_append A xs B) hd hr

/-- Both relative positions of the two ranges. -/
theorem C09_swap_ranges (A xs B ys C : List α) (h : xs.length = ys.length) :
    swapRanges (A ++ xs ++ B ++ ys ++ C) A.length (A.length + xs.length) (A.length + xs.length + B.length)
      = some (A ++ ys ++ B ++ xs ++ C, A.length + xs.length + B.length + ys.length) ∧
    swapRanges (A ++ xs ++ B ++ ys ++ C) (A.length + xs.length + B.length)
        (A.length + xs.length + B.length + ys.length) A.length
      = some (A ++ ys ++ B ++ xs ++ C, A.length + xs.length) := by
  refine ⟨by simpa using swapRanges_spec xs ys A B C h, ?_⟩
  simpa using swapRanges_spec' ys xs A B C h.symm

/-- `copy`, source at `|A|`; the destination may overlap the source from the left. -/
theorem C09_copy (m A xs B : List α) (d : Nat) (hm : m = A ++ xs ++ B)
    (hd : d ≤ A.length ∨ A.length + xs.length ≤ d) (hr : d + xs.length ≤ m.length) :
    copy m A.length (A.length + xs.length) d = some (Spec.overwrite m d xs, d + xs.length) := by
  have hid : xs.filterMap some = xs := by simp
  have := emitLoop_spec some xs m A.length d (hm ▸ Seg.of_append A xs B) hd (by rw [hid]; exact hr)
  rw [hid] at this
  exact this

/-- `copy_backward`, destination `[d, d+|xs|)`; it may overlap the source from the right. -/
theorem C09_copy_backward (m A xs B : List α) (d : Nat) (hm : m = A ++ xs ++ B)
    (hd : d + xs.length ≤ A.length ∨ A.length ≤ d) (hr : d + xs.length ≤ m.length) :
    copyBackward m A.length (A.length + xs.length) (d + xs.length) = some (Spec.overwrite m d xs, d) :=
  copyBackward_spec _ xs m A.length d rfl (hm ▸ Seg.of_append A xs B) hd hr

/-! Non-trivial instances. -/

example : reverse [9, 1, 2, 3, 4, 9] 1 5 = some [9, 4, 3, 2, 1, 9] := C09_reverse [9] [1, 2, 3, 4] [9]
example : reverseCopy [1, 2, 3, 0, 0, 0] 0 3 3 = some ([1, 2, 3, 3, 2, 1], 6) :=
  C09_reverse_copy _ [] [1, 2, 3] [0, 0, 0] 3 rfl (by decide) (by decide)
example : swapRanges [0, 1, 2, 7, 3, 4] 1 3 4 = some ([0, 3, 4, 7, 1, 2], 6) :=
  (C09_swap_ranges [0] [1, 2] [7] [3, 4] [] rfl).1
-- overlapping to the right
example : copyBackward [1, 2, 3, 4, 9, 9] 0 4 5 = some ([1, 1, 2, 3, 4, 9], 1) :=
  C09_copy_backward _ [] [1, 2, 3, 4] [9, 9] 1 rfl (by decide) (by decide)
-- overlapping to the left
example : copy [9, 9, 1, 2, 3] 2 5 1 = some ([9, 1, 2, 3, 3], 4) :=
  C09_copy _ [9, 9] [1, 2, 3] [] 1 rfl (by decide) (by decide)

end Sprout
