import Mathlib.Data.List.Rotate
import Verif.Proofs.Moves

/-!
# C08: rotate performs the left rotation

The range is the segment `X ++ Z` of the block `pre ++ X ++ Z ++ post`, `middle` the start of `Z`.
`= some _` includes termination and that every access stays inside the block; `pre` and `post` are
unchanged.
-/

namespace Sprout
variable {α : Type}

theorem C08_rotate (pre X Z post : List α) :
    rotate (pre ++ X ++ Z ++ post) pre.length (pre.length + X.length) (pre.length + X.length + Z.length)
      = some (pre ++ Z ++ X ++ post, pre.length + Z.length) := by
  have := rotate_spec pre X Z post
  simpa using this

/-- The same statement without naming the parts: `xs` rotated left by any `k ≤ |xs|`. -/
theorem C08_rotate' (pre xs post : List α) (k : Nat) (hk : k ≤ xs.length) :
    rotate (pre ++ xs ++ post) pre.length (pre.length + k) (pre.length + xs.length)
      = some (pre ++ xs.rotate k ++ post, pre.length + (xs.length - k)) := by
  have h := rotate_spec pre (xs.take k) (xs.drop k) post
  have e : xs.take k ++ (xs.drop k ++ post) = xs ++ post := by
    rw [← List.append_assoc, List.take_append_drop]
  rw [e] at h
  simp only [List.length_take, List.length_drop, Nat.min_eq_left hk] at h
  rw [show pre.length + k + (xs.length - k) = pre.length + xs.length by omega] at h
  rw [List.append_assoc, h, List.rotate_eq_drop_append_take hk]
  simp

/-- `rotate_copy` writes the rotation of the source at the destination (disjoint ranges). -/
theorem C08_rotate_copy (m A X Z B : List α) (d : Nat) (hm : m = A ++ X ++ Z ++ B)
    (hd : d + X.length + Z.length ≤ A.length ∨ A.length + X.length + Z.length ≤ d)
    (hr : d + X.length + Z.length ≤ m.length) :
    rotateCopy m A.length (A.length + X.length) (A.length + X.length + Z.length) d
      = some (Spec.overwrite m d (Z ++ X), d + (X.length + Z.length)) := by
  unfold rotateCopy copy
  have hZ : Seg m (A.length + X.length) Z := by
    have := Seg.of_append (A ++ X) Z B; rw [← hm] at this; simpa using this
  have hX : Seg m A.length X := by
    have := Seg.of_append A X (Z ++ B); simp only [List.append_assoc] at hm this; rw [← hm] at this; exact this
  have hid : ∀ xs : List α, xs.filterMap some = xs := fun xs => by simp
  have hlen : m.length = A.length + X.length + Z.length + B.length := by rw [hm]; simp; omega
  rw [emitLoop_spec some Z m _ d hZ (by omega) (by rw [hid]; omega)]
  simp only [hid, Option.bind_eq_bind, Option.bind_some]
  have hov : d + Z.length ≤ m.length := by omega
  rw [emitLoop_spec some X _ _ _ (by
      intro i hi
      rw [overwrite_getElem? hov]
      split
      · exact hX i hi
      · rw [if_neg (by omega)]; exact hX i hi) (by omega) (by rw [hid, overwrite_length hov]; omega)]
  rw [hid]
  congr 2
  · apply List.ext_getElem?
    intro i
    rw [overwrite_getElem? (by rw [overwrite_length hov]; omega), overwrite_getElem? hov, overwrite_getElem? (by simp; omega)]
    simp only [List.length_append]
    rcases Nat.lt_or_ge i d with h1 | h1
    · simp [h1]; omega
    · rcases Nat.lt_or_ge i (d + Z.length) with h2 | h2
      · rw [if_pos (by omega), if_neg (by omega), if_pos h2, if_neg (by omega), if_pos (by omega),
          List.getElem?_append_left (by omega)]
      · rcases Nat.lt_or_ge i (d + Z.length + X.length) with h3 | h3
        · rw [if_neg (by omega), if_pos h3, if_neg (by omega), if_pos (by omega),
            List.getElem?_append_right (by omega), Nat.sub_add_eq]
        · rw [if_neg (by omega), if_neg (by omega), if_neg (by omega), if_neg (by omega), if_neg (by omega), if_neg (by omega)]
  · omega

/-! Non-trivial instances. -/

example : rotate [9, 1, 2, 3, 4, 5, 9] 1 3 6 = some ([9, 3, 4, 5, 1, 2, 9], 4) :=
  C08_rotate [9] [1, 2] [3, 4, 5] [9]

example : rotateCopy [1, 2, 3, 0, 0, 0, 7] 0 1 3 3 = some ([1, 2, 3, 2, 3, 1, 7], 6) :=
  C08_rotate_copy _ [] [1] [2, 3] [0, 0, 0, 7] 3 rfl (by decide) (by decide)

end Sprout
