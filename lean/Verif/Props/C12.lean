import Verif.Proofs.Moves

/-!
# C12: unique and remove compact in place

Specification: `List.filter` for removal, `Spec.dedup` ("keep the first element of every run") for
`unique`. In-place versions may leave anything between the returned end and the old end
(existential `junk`), but nothing outside the range changes.
-/

namespace Sprout
variable {α : Type}

theorem C12_remove_if (p : α → Bool) (pre xs post : List α) :
    ∃ junk, removeIf (pre ++ xs ++ post) pre.length (pre.length + xs.length) p
      = some (pre ++ xs.filter (fun x => !p x) ++ junk ++ post, pre.length + (xs.filter (fun x => !p x)).length) ∧
      (xs.filter (fun x => !p x)).length + junk.length = xs.length := by
  refine ⟨xs.drop (xs.filter (fun x => !p x)).length, ?_, ?_⟩
  · unfold removeIf
    rw [emitLoop_inplace, filterMap_not]
  · have := List.length_filter_le (fun x => !p x) xs
    simp; omega

theorem C12_remove [BEq α] (v : α) (pre xs post : List α) :
    ∃ junk, remove (pre ++ xs ++ post) pre.length (pre.length + xs.length) v
      = some (pre ++ xs.filter (fun x => !(x == v)) ++ junk ++ post, pre.length + (xs.filter (fun x => !(x == v))).length) ∧
      (xs.filter (fun x => !(x == v))).length + junk.length = xs.length :=
  C12_remove_if (fun x => x == v) pre xs post

theorem C12_unique (p : α → α → Bool) (pre xs post : List α) :
    ∃ junk, unique p (pre ++ xs ++ post) pre.length (pre.length + xs.length)
      = some (pre ++ Spec.dedup p xs ++ junk ++ post, pre.length + (Spec.dedup p xs).length) ∧
      (Spec.dedup p xs).length + junk.length = xs.length := by
  refine ⟨xs.drop (Spec.dedup p xs).length, unique_spec p pre xs post, ?_⟩
  have := dedup_length p xs
  simp; omega

/-- copying variants; destination to the left of, or disjoint from, the source -/
theorem C12_remove_copy_if (p : α → Bool) (m A xs B : List α) (d : Nat) (hm : m = A ++ xs ++ B)
    (hd : d ≤ A.length ∨ A.length + xs.length ≤ d) (hr : d + (xs.filter (fun x => !p x)).length ≤ m.length) :
    removeCopyIf m A.length (A.length + xs.length) d p
      = some (Spec.overwrite m d (xs.filter (fun x => !p x)), d + (xs.filter (fun x => !p x)).length) := by
  unfold removeCopyIf
  rw [emitLoop_spec _ xs m A.length d (hm ▸ Seg.of_append A xs B) hd (by rw [filterMap_not]; exact hr), filterMap_not]

theorem C12_remove_copy [BEq α] (v : α) (m A xs B : List α) (d : Nat) (hm : m = A ++ xs ++ B)
    (hd : d ≤ A.length ∨ A.length + xs.length ≤ d) (hr : d + (xs.filter (fun x => !(x == v))).length ≤ m.length) :
    removeCopy m A.length (A.length + xs.length) d v
      = some (Spec.overwrite m d (xs.filter (fun x => !(x == v))), d + (xs.filter (fun x => !(x == v))).length) :=
  C12_remove_copy_if (fun x => x == v) m A xs B d hm hd hr

theorem C12_copy_if (p : α → Bool) (m A xs B : List α) (d : Nat) (hm : m = A ++ xs ++ B)
    (hd : d ≤ A.length ∨ A.length + xs.length ≤ d) (hr : d + (xs.filter p).length ≤ m.length) :
    copyIf m A.length (A.length + xs.length) d p
      = some (Spec.overwrite m d (xs.filter p), d + (xs.filter p).length) := by
  unfold copyIf
  rw [emitLoop_spec _ xs m A.length d (hm ▸ Seg.of_append A xs B) hd (by rw [filterMap_if]; exact hr), filterMap_if]

theorem C12_unique_copy (p : α → α → Bool) (m A xs B : List α) (d : Nat) (hm : m = A ++ xs ++ B)
    (hd : d ≤ A.length ∨ A.length + xs.length ≤ d) (hr : d + (Spec.dedup p xs).length ≤ m.length) :
    uniqueCopy p m A.length (A.length + xs.length) d
      = some (Spec.overwrite m d (Spec.dedup p xs), d + (Spec.dedup p xs).length) :=
  uniqueCopy_spec p xs m A.length d (hm ▸ Seg.of_append A xs B) hd hr

/-- Sanity of the specification: no two neighbours of `dedup` are related. -/
theorem C12_dedup_adjacent (p : α → α → Bool) (xs : List α) :
    (Spec.dedup p xs).IsChain (fun a b => p a b = false) := by
  rcases xs with _ | ⟨x, xs⟩
  · simp [Spec.dedup]
  · simp only [Spec.dedup]
    induction xs generalizing x with
    | nil => simp [Spec.dedupFrom]
    | cons y ys ih =>
      simp only [Spec.dedupFrom]
      split
      · exact ih x
      · rename_i h
        exact List.IsChain.cons_cons (by simpa using h) (ih y)

/-! Non-trivial instances. -/

example : ∃ junk, removeIf [9, 1, 2, 3, 4, 9] 1 5 (· % 2 == 0) = some ([9] ++ [1, 3] ++ junk ++ [9], 3) ∧ 2 + junk.length = 4 :=
  C12_remove_if (· % 2 == 0) [9] [1, 2, 3, 4] [9]
example : ∃ junk, unique (· == ·) [9, 1, 1, 2, 2, 1, 9] 1 6 = some ([9] ++ [1, 2, 1] ++ junk ++ [9], 4) ∧ 3 + junk.length = 5 :=
  C12_unique (· == ·) [9] [1, 1, 2, 2, 1] [9]
example : uniqueCopy (· == ·) [1, 1, 2, 0, 0, 7] 0 3 3 = some ([1, 1, 2, 1, 2, 7], 5) :=
  C12_unique_copy (· == ·) _ [] [1, 1, 2] [0, 0, 7] 3 rfl (by decide) (by decide)

end Sprout
