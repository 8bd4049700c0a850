import Verif.Proofs.BinarySearch

/-!
# C14: binary searches find the partition boundary

The searched range is the segment `T ++ F` of a block, where the probe's predicate holds on `T` and
fails on `F` (exactly the standard's precondition; sortedness is a special case, see the `_sorted`
theorems). The number of predicate calls is at most the number of binary digits of the length:
`2 ^ (calls - 1) ≤ length`.
-/

namespace Sprout
variable {α β : Type}

theorem C14_lower_bound (comp : α → β → Bool) (v : β) (pre T F post : List α)
    (hT : ∀ x ∈ T, comp x v = true) (hF : ∀ x ∈ F, comp x v = false) :
    ∃ calls, lowerBound (pre ++ (T ++ F) ++ post) pre.length (pre.length + (T ++ F).length) v comp
        = some (pre.length + T.length, calls) ∧ (calls = 0 ∨ 2 ^ (calls - 1) ≤ (T ++ F).length) := by
  obtain ⟨c, h1, h2⟩ := bisect_part pre T F post (fun x => comp x v) hT hF
  refine ⟨c, ?_, bits_pow h2⟩
  unfold lowerBound
  rw [Nat.add_sub_cancel_left]
  exact h1

theorem C14_upper_bound (comp : β → α → Bool) (v : β) (pre T F post : List α)
    (hT : ∀ x ∈ T, comp v x = false) (hF : ∀ x ∈ F, comp v x = true) :
    ∃ calls, upperBound (pre ++ (T ++ F) ++ post) pre.length (pre.length + (T ++ F).length) v comp
        = some (pre.length + T.length, calls) ∧ (calls = 0 ∨ 2 ^ (calls - 1) ≤ (T ++ F).length) := by
  obtain ⟨c, h1, h2⟩ := bisect_part pre T F post (fun x => !comp v x)
    (fun x hx => by simp [hT x hx]) (fun x hx => by simp [hF x hx])
  refine ⟨c, ?_, bits_pow h2⟩
  unfold upperBound
  rw [Nat.add_sub_cancel_left]
  exact h1

/-- both the C++14 loop and the C++11 recursion -/
theorem C14_partition_point (p : α → Bool) (pre T F post : List α)
    (hT : ∀ x ∈ T, p x = true) (hF : ∀ x ∈ F, p x = false) :
    (∃ calls, partitionPoint (pre ++ (T ++ F) ++ post) pre.length (pre.length + (T ++ F).length) p
        = some (pre.length + T.length, calls) ∧ (calls = 0 ∨ 2 ^ (calls - 1) ≤ (T ++ F).length)) ∧
    (∃ calls, partitionPoint11 (pre ++ (T ++ F) ++ post) pre.length (pre.length + (T ++ F).length) p
        = some (pre.length + T.length, calls) ∧ (calls = 0 ∨ 2 ^ (calls - 1) ≤ (T ++ F).length)) := by
  constructor
  · obtain ⟨c, h1, h2⟩ := bisect_part pre T F post p hT hF
    refine ⟨c, ?_, bits_pow h2⟩
    unfold partitionPoint
    rw [Nat.add_sub_cancel_left]
    exact h1
  · obtain ⟨c, h1, h2⟩ := partitionPointImpl_spec (pre ++ (T ++ F) ++ post) p (pre.length + T.length) (T ++ F).length pre.length
      (by omega) (by simp) (testAt_true_part pre T F post p hT) (testAt_false_part pre T F post p hF)
    refine ⟨c, ?_, bits_pow h2⟩
    unfold partitionPoint11
    rw [Nat.add_sub_cancel_left]
    exact h1

/-- `A`: below the value, `B`: equivalent, `C`: above. -/
theorem C14_equal_range (lt : α → β → Bool) (gt : β → α → Bool) (v : β) (pre A B C post : List α)
    (hA : ∀ x ∈ A, lt x v = true ∧ gt v x = false) (hB : ∀ x ∈ B, lt x v = false ∧ gt v x = false)
    (hC : ∀ x ∈ C, lt x v = false ∧ gt v x = true) :
    ∃ calls, equalRange (pre ++ (A ++ B ++ C) ++ post) pre.length (pre.length + (A ++ B ++ C).length) v lt gt
        = some (pre.length + A.length, pre.length + A.length + B.length, calls) ∧
      (calls = 0 ∨ 2 ^ ((calls - 1) / 2) ≤ (A ++ B ++ C).length) := by
  have e : A ++ B ++ C = A ++ (B ++ C) := by simp
  have h1 := testAt_true_part pre A (B ++ C) post (fun x => lt x v) (fun x hx => (hA x hx).1)
  have h2 := testAt_false_part pre A (B ++ C) post (fun x => lt x v)
    (fun x hx => (List.mem_append.mp hx).elim (fun h => (hB x h).1) (fun h => (hC x h).1))
  have h3 := testAt_true_part pre (A ++ B) C post (fun x => !gt v x)
    (fun x hx => by
      rcases List.mem_append.mp hx with h | h
      · simp [(hA x h).2]
      · simp [(hB x h).2])
  have h4 := testAt_false_part pre (A ++ B) C post (fun x => !gt v x) (fun x hx => by simp [(hC x hx).2])
  have hn : ∀ (m : List α) i b, testAt m (fun x => !gt v x) i = some b → testAt m (fun x => gt v x) i = some (!b) := by
    intro m i b
    unfold testAt
    cases rd m i with
    | none => simp
    | some x => intro h; simp only [Option.map_some, Option.some.injEq] at h ⊢; rw [← h]; simp
  rw [← e] at h1 h2
  obtain ⟨c, h5, h6⟩ := equalRangeImpl_spec (pre ++ (A ++ B ++ C) ++ post) v lt gt (pre.length + A.length)
    (pre.length + A.length + B.length) (A ++ B ++ C).length pre.length (by omega) (by omega) (by simp; omega)
    h1 h2
    (fun i a b => hn _ i true (h3 i a (by simp; omega)))
    (fun i a b => hn _ i false (h4 i (by simp; omega) b))
  refine ⟨c, ?_, ?_⟩
  · unfold equalRange
    rw [Nat.add_sub_cancel_left]
    exact h5
  · rcases Nat.eq_zero_or_pos c with h | h
    · exact Or.inl h
    · right
      rcases bits_pow (show (c - 1) / 2 + 1 ≤ bits (A ++ B ++ C).length by omega) with h' | h'
      · omega
      · simpa using h'

theorem C14_binary_search (lt : α → β → Bool) (gt : β → α → Bool) (v : β) (pre A B C post : List α)
    (hA : ∀ x ∈ A, lt x v = true ∧ gt v x = false) (hB : ∀ x ∈ B, lt x v = false ∧ gt v x = false)
    (hC : ∀ x ∈ C, lt x v = false ∧ gt v x = true) :
    ∃ calls, binarySearch (pre ++ (A ++ B ++ C) ++ post) pre.length (pre.length + (A ++ B ++ C).length) v lt gt
        = some (decide (B ≠ []), calls) ∧
      (calls ≤ 1 ∨ 2 ^ (calls - 2) ≤ (A ++ B ++ C).length) := by
  have e : A ++ B ++ C = A ++ (B ++ C) := by simp
  obtain ⟨c, h1, h2⟩ := bisect_part pre A (B ++ C) post (fun x => lt x v) (fun x hx => (hA x hx).1)
    (fun x hx => (List.mem_append.mp hx).elim (fun h => (hB x h).1) (fun h => (hC x h).1))
  rw [← e] at h1 h2
  unfold binarySearch lowerBound
  rw [Nat.add_sub_cancel_left, h1]
  simp only [Option.bind_eq_bind, Option.bind_some]
  have hcalls : c + 1 ≤ 1 ∨ 2 ^ (c + 1 - 2) ≤ (A ++ B ++ C).length := by
    rcases bits_pow h2 with h | h
    · left; omega
    · right; rw [show c + 1 - 2 = c - 1 by omega]; exact h
  rcases B with _ | ⟨b, B⟩
  · rcases C with _ | ⟨d, C⟩
    · rw [if_pos (by simp)]
      refine ⟨c, by simp, ?_⟩
      rcases bits_pow h2 with h | h
      · left; omega
      · right; exact Nat.le_trans (Nat.pow_le_pow_right (by omega) (by omega)) h
    · rw [if_neg (by simp), testAt_mid pre (A ++ [] ++ d :: C) post _ A.length (by simp)]
      refine ⟨c + 1, ?_, hcalls⟩
      have := (hC d (by simp)).2
      simp [this]
  · rw [if_neg (by simp), testAt_mid pre (A ++ b :: B ++ C) post _ A.length (by simp)]
    refine ⟨c + 1, ?_, hcalls⟩
    have := (hB b (by simp)).2
    simp [this]

/-! Sorted ranges: the user's usual situation. -/

theorem C14_lower_bound_sorted {comp : α → α → Bool} (hc : StrictWeak comp) (v : α) (pre xs post : List α)
    (hs : SortedBy comp xs) :
    ∃ T F calls, xs = T ++ F ∧ (∀ x ∈ T, comp x v = true) ∧ (∀ x ∈ F, comp x v = false) ∧
      lowerBound (pre ++ xs ++ post) pre.length (pre.length + xs.length) v comp = some (pre.length + T.length, calls) := by
  obtain ⟨T, F, rfl, h1, h2⟩ := sorted_split_lower hc v xs hs
  obtain ⟨c, h3, _⟩ := C14_lower_bound comp v pre T F post h1 h2
  exact ⟨T, F, c, rfl, h1, h2, h3⟩

theorem C14_upper_bound_sorted {comp : α → α → Bool} (hc : StrictWeak comp) (v : α) (pre xs post : List α)
    (hs : SortedBy comp xs) :
    ∃ T F calls, xs = T ++ F ∧ (∀ x ∈ T, comp v x = false) ∧ (∀ x ∈ F, comp v x = true) ∧
      upperBound (pre ++ xs ++ post) pre.length (pre.length + xs.length) v comp = some (pre.length + T.length, calls) := by
  obtain ⟨T, F, rfl, h1, h2⟩ := sorted_split_upper hc v xs hs
  obtain ⟨c, h3, _⟩ := C14_upper_bound comp v pre T F post h1 h2
  exact ⟨T, F, c, rfl, h1, h2, h3⟩

theorem C14_binary_search_sorted {comp : α → α → Bool} (hc : StrictWeak comp) (v : α) (pre xs post : List α)
    (hs : SortedBy comp xs) :
    ∃ b calls, binarySearch (pre ++ xs ++ post) pre.length (pre.length + xs.length) v comp comp = some (b, calls) ∧
      (b = true ↔ ∃ x ∈ xs, comp x v = false ∧ comp v x = false) := by
  obtain ⟨T, F, rfl, h1, h2⟩ := sorted_split_lower hc v xs hs
  obtain ⟨B, C, rfl, h3, h4⟩ := sorted_split_upper hc v F (List.pairwise_append.mp hs).2.1
  have := C14_binary_search comp comp v pre T B C post
    (fun x hx => ⟨h1 x hx, hc.asymm (h1 x hx)⟩) (fun x hx => ⟨h2 x (by simp [hx]), h3 x hx⟩)
    (fun x hx => ⟨h2 x (by simp [hx]), h4 x hx⟩)
  rw [List.append_assoc T] at this
  obtain ⟨c, h5, _⟩ := this
  refine ⟨_, c, h5, ?_⟩
  simp only [decide_eq_true_eq]
  constructor
  · intro hB
    obtain ⟨b, B', rfl⟩ := List.exists_cons_of_ne_nil hB
    exact ⟨b, by simp, h2 b (by simp), h3 b (by simp)⟩
  · rintro ⟨x, hx, ha, hb⟩ rfl
    simp only [List.nil_append, List.mem_append] at hx
    rcases hx with hx | hx
    · rw [h1 x hx] at ha; cases ha
    · rw [h4 x hx] at hb; cases hb

/-! Non-trivial instances. -/

example : ∃ c, lowerBound [9, 1, 3, 3, 5, 0] 1 5 3 (fun a b => decide (a < b)) = some (2, c) ∧ (c = 0 ∨ 2 ^ (c - 1) ≤ 4) :=
  C14_lower_bound (fun a b => decide (a < b)) 3 [9] [1] [3, 3, 5] [0] (by decide) (by decide)
example : ∃ c, equalRange [9, 1, 3, 3, 5, 0] 1 5 3 (fun a b => decide (a < b)) (fun a b => decide (a < b)) = some (2, 4, c) ∧
    (c = 0 ∨ 2 ^ ((c - 1) / 2) ≤ 4) :=
  C14_equal_range _ _ 3 [9] [1] [3, 3] [5] [0] (by decide) (by decide) (by decide)
example : ∃ c, binarySearch [9, 1, 3, 3, 5, 0] 1 5 3 (fun a b => decide (a < b)) (fun a b => decide (a < b)) = some (true, c) ∧
    (c ≤ 1 ∨ 2 ^ (c - 2) ≤ 4) :=
  C14_binary_search _ _ 3 [9] [1] [3, 3] [5] [0] (by decide) (by decide) (by decide)

end Sprout
