import Verif.Proofs.Moves

/-!
# C11: partition and stable_partition separate by predicate

`partition` and `partition_copy` are correct. `stable_partition` (and with it `gather`) is not: its
recursion bottoms out with `return first` without looking at the predicate
(sprout/algorithm/cxx14/stable_partition.hpp 23-25), so that no element is ever moved.
-/

namespace Sprout
variable {α : Type}

theorem C11_partition (p : α → Bool) (pre xs post : List α) :
    ∃ T F, partition p (pre ++ xs ++ post) pre.length (pre.length + xs.length)
      = some (pre ++ T ++ F ++ post, pre.length + T.length) ∧
      (∀ x ∈ T, p x = true) ∧ (∀ x ∈ F, p x = false) ∧ (T ++ F).Perm xs := partition_spec p pre xs post

/-- the returned boundary is determined: it is the number of satisfying elements -/
theorem C11_partition_boundary (p : α → Bool) (pre xs post : List α) :
    ∃ m', partition p (pre ++ xs ++ post) pre.length (pre.length + xs.length)
      = some (m', pre.length + xs.countP p) := by
  obtain ⟨T, F, h1, h2, h3, h4⟩ := partition_spec p pre xs post
  refine ⟨pre ++ T ++ F ++ post, ?_⟩
  rw [h1, ← h4.countP_eq p, List.countP_append, List.countP_eq_length.mpr h2,
    List.countP_eq_zero.mpr (fun x hx => by simp [h3 x hx])]
  rfl

/-- `partition_copy` into two destinations disjoint from each other; both get the elements in source order. -/
theorem C11_partition_copy (p : α → Bool) (m A xs B : List α) (d e : Nat) (hm : m = A ++ xs ++ B)
    (hd : d ≤ A.length ∨ A.length + xs.length ≤ d) (he : e ≤ A.length ∨ A.length + xs.length ≤ e)
    (hr : d + (xs.filter p).length ≤ m.length) (hr' : e + (xs.filter (fun x => !p x)).length ≤ m.length)
    (hdis : d + (xs.filter p).length ≤ e ∨ e + (xs.filter (fun x => !p x)).length ≤ d) :
    partitionCopy p m A.length (A.length + xs.length) d e
      = some (Spec.overwrite (Spec.overwrite m d (xs.filter p)) e (xs.filter (fun x => !p x)),
          d + (xs.filter p).length, e + (xs.filter (fun x => !p x)).length) :=
  partitionCopy_spec p xs m A.length d e (hm ▸ Seg.of_append A xs B) hd he hr hr' hdis

/-- The full statement for `stable_partition`. -/
def StablePartitionFull (f : (Nat → Bool) → List Nat → Nat → Nat → Option (List Nat × Nat)) : Prop :=
  ∀ (p : Nat → Bool) (pre xs post : List Nat),
    f p (pre ++ xs ++ post) pre.length (pre.length + xs.length)
      = some (pre ++ xs.filter p ++ xs.filter (fun x => !p x) ++ post, pre.length + (xs.filter p).length)

/-- What `stable_partition` computes: nothing moves, the result is the first non-satisfying position. -/
theorem C11_stable_partition_noop (p : α → Bool) (pre xs post : List α) :
    stablePartition p (pre ++ xs ++ post) pre.length (pre.length + xs.length)
      = some (pre ++ xs ++ post, pre.length + xs.findIdx (fun x => !p x)) := stablePartition_noop p pre xs post

/-- The full statement fails for the code: `[0,1]`, predicate `= 1`. -/
theorem C11_stable_partition_false : ¬ StablePartitionFull stablePartition := by
  intro h
  have h1 := h (· == 1) [] [0, 1] []
  rw [stablePartition_noop] at h1
  simp at h1

/-- Missing compared to `StablePartitionFull`: all ranges that are not already partitioned. -/
theorem C11_stable_partition_partial (p : α → Bool) (pre T F post : List α)
    (hT : ∀ x ∈ T, p x = true) (hF : ∀ x ∈ F, p x = false) :
    stablePartition p (pre ++ (T ++ F) ++ post) pre.length (pre.length + (T ++ F).length)
      = some (pre ++ T ++ F ++ post, pre.length + T.length) := by
  rw [stablePartition_noop, findIdx_append_false T F (fun x hx => by simp [hT x hx])]
  have : F.findIdx (fun x => !p x) = 0 := by
    rcases F with _ | ⟨f, F⟩
    · rfl
    · simp [List.findIdx_cons, hF f (by simp)]
  rw [this]; simp

/-- The full statement for `gather`: the satisfying elements of both halves around the pivot. -/
def GatherFull (f : (Nat → Bool) → List Nat → Nat → Nat → Nat → Option (List Nat × Nat × Nat)) : Prop :=
  ∀ (p : Nat → Bool) (pre xs ys post : List Nat),
    f p (pre ++ xs ++ ys ++ post) pre.length (pre.length + xs.length + ys.length) (pre.length + xs.length)
      = some (pre ++ xs.filter (fun x => !p x) ++ xs.filter p ++ ys.filter p ++ ys.filter (fun x => !p x) ++ post,
          pre.length + (xs.filter (fun x => !p x)).length, pre.length + xs.length + (ys.filter p).length)

theorem C11_gather_noop (p : α → Bool) (pre xs ys post : List α) :
    gather p (pre ++ xs ++ ys ++ post) pre.length (pre.length + xs.length + ys.length) (pre.length + xs.length)
      = some (pre ++ xs ++ ys ++ post, pre.length + xs.findIdx p,
          pre.length + xs.length + ys.findIdx (fun x => !p x)) := by
  unfold gather
  have h1 := stablePartition_noop (fun x => !p x) pre xs (ys ++ post)
  have h2 := stablePartition_noop p (pre ++ xs) ys post
  simp only [List.append_assoc, List.length_append, Bool.not_not] at h1 h2 ⊢
  rw [h1]
  simp only [Option.bind_eq_bind, Option.bind_some]
  rw [h2]
  simp

theorem C11_gather_false : ¬ GatherFull gather := by
  intro h
  have h1 := h (· == 1) [] [1, 0] [] []
  rw [C11_gather_noop] at h1
  simp at h1

/-- Missing compared to `GatherFull`: all ranges that are not already gathered around the pivot. -/
theorem C11_gather_partial (p : α → Bool) (pre F T T' F' post : List α)
    (hF : ∀ x ∈ F, p x = false) (hT : ∀ x ∈ T, p x = true) (hT' : ∀ x ∈ T', p x = true) (hF' : ∀ x ∈ F', p x = false) :
    gather p (pre ++ (F ++ T) ++ (T' ++ F') ++ post) pre.length
        (pre.length + (F ++ T).length + (T' ++ F').length) (pre.length + (F ++ T).length)
      = some (pre ++ F ++ T ++ T' ++ F' ++ post, pre.length + F.length, pre.length + (F ++ T).length + T'.length) := by
  rw [C11_gather_noop, findIdx_append_false F T hF, findIdx_append_false T' F' (fun x hx => by simp [hT' x hx])]
  have h1 : T.findIdx p = 0 := by
    rcases T with _ | ⟨f, F⟩
    · rfl
    · simp [List.findIdx_cons, hT f (by simp)]
  have h2 : F'.findIdx (fun x => !p x) = 0 := by
    rcases F' with _ | ⟨f, F⟩
    · rfl
    · simp [List.findIdx_cons, hF' f (by simp)]
  rw [h1, h2]; simp

/-! Non-trivial instances. -/

example : ∃ m', partition (· % 2 == 0) [9, 1, 2, 3, 4, 9] 1 5 = some (m', 3) :=
  C11_partition_boundary (· % 2 == 0) [9] [1, 2, 3, 4] [9]
example : partitionCopy (· % 2 == 0) [1, 2, 3, 4, 0, 0, 0, 0] 0 4 4 6 = some ([1, 2, 3, 4, 2, 4, 1, 3], 6, 8) :=
  C11_partition_copy (· % 2 == 0) _ [] [1, 2, 3, 4] [0, 0, 0, 0] 4 6 rfl
    (by decide) (by decide) (by decide) (by decide) (by decide)
example : stablePartition (· % 2 == 0) [9, 2, 4, 1, 3, 9] 1 5 = some ([9, 2, 4, 1, 3, 9], 3) :=
  C11_stable_partition_partial (· % 2 == 0) [9] [2, 4] [1, 3] [9] (by decide) (by decide)

end Sprout
