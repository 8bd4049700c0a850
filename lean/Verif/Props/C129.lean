import Verif.Proofs.RangeAlg
import Verif.Props.C14
import Verif.Props.C15
import Verif.Props.C16
import Verif.Props.C17
import Verif.Props.C18

/-!
# C129: algorithms on ranges

The segment `xs` of a block `pre ++ xs ++ post` is the range. A search returns, as the caller
demands, the iterator, the elements before the one found, or the elements from it on.
-/

namespace Sprout
open RangeAlg Spec
variable {α β : Type}

theorem takeWhile_findIdx (p : α → Bool) (xs : List α) :
    xs.takeWhile (fun x => !p x) = xs.take (xs.findIdx p) ∧ xs.dropWhile (fun x => !p x) = xs.drop (xs.findIdx p) := by
  induction xs with
  | nil => simp
  | cons x r ih =>
    by_cases h : p x <;> simp [List.findIdx_cons, h, ih]

/-- `find`, `find_if`, `find_if_not` -/
theorem C129_find [BEq α] (pre xs post : List α) (value : α) (pred : α → Bool) (v : RetV) :
    (∃ p, RangeAlg.find v (seg pre xs post) value = some p ∧ Cut v pre xs post (xs.findIdx (· == value)) p) ∧
    (∃ p, RangeAlg.findIf v (seg pre xs post) pred = some p ∧ Cut v pre xs post (xs.findIdx pred) p) ∧
    (∃ p, RangeAlg.findIfNot v (seg pre xs post) pred = some p ∧
      Cut v pre xs post (xs.findIdx (fun x => !pred x)) p) := by
  refine ⟨⟨_, ?_, pack_cut v pre xs post _ List.findIdx_le_length⟩,
    ⟨_, ?_, pack_cut v pre xs post _ List.findIdx_le_length⟩, ⟨_, ?_, pack_cut v pre xs post _ List.findIdx_le_length⟩⟩
  · unfold RangeAlg.find
    simp only [seg]
    rw [(C15_find value pre xs post).1]; rfl
  · unfold RangeAlg.findIf
    simp only [seg]
    rw [(C15_find_if pred pre xs post).1]; rfl
  · unfold RangeAlg.findIfNot
    simp only [seg]
    rw [(C15_find_if_not pred pre xs post).1]; rfl

/-- The range in front of the element found by `find_if` is the longest prefix of elements that do
not satisfy the predicate; the range from the element on is the rest. -/
theorem C129_find_if_prefix (pre xs post : List α) (pred : α → Bool) :
    ((RangeAlg.findIf .beginFound (seg pre xs post) pred).bind (shows (pre ++ xs ++ post)))
      = some (xs.takeWhile (fun x => !pred x)) ∧
    ((RangeAlg.findIf .foundEnd (seg pre xs post) pred).bind (shows (pre ++ xs ++ post)))
      = some (xs.dropWhile (fun x => !pred x)) := by
  have key : ∀ v, ∃ p, RangeAlg.findIf v (seg pre xs post) pred = some p ∧ Cut v pre xs post (xs.findIdx pred) p := by
    intro v
    refine ⟨_, ?_, pack_cut v pre xs post _ List.findIdx_le_length⟩
    unfold RangeAlg.findIf
    simp only [seg]
    rw [(C15_find_if pred pre xs post).1]; rfl
  obtain ⟨p, h1, h2⟩ := key .beginFound
  obtain ⟨q, h3, h4⟩ := key .foundEnd
  rw [h1, h3, (takeWhile_findIdx pred xs).1, (takeWhile_findIdx pred xs).2]
  exact ⟨h2, h4⟩

/-- `adjacent_find` and `find_first_of` -/
theorem C129_adjacent_first_of (pre xs post : List α) (pre2 ys post2 : List β) (pred : α → α → Bool)
    (pred2 : α → β → Bool) (v : RetV) :
    (∃ p, RangeAlg.adjacentFind v (seg pre xs post) pred = some p ∧ Cut v pre xs post (adjIdx pred xs) p) ∧
    (∃ p, RangeAlg.findFirstOf v (seg pre xs post) (seg pre2 ys post2) pred2 = some p ∧
      Cut v pre xs post (xs.findIdx (fun x => ys.any (pred2 x))) p) := by
  refine ⟨⟨_, ?_, pack_cut v pre xs post _ (adjIdx_le pred xs)⟩, ⟨_, ?_, pack_cut v pre xs post _ List.findIdx_le_length⟩⟩
  · unfold RangeAlg.adjacentFind
    simp only [seg]
    rw [(C16_adjacent_find pred pre xs post).1]; rfl
  · unfold RangeAlg.findFirstOf
    simp only [seg]
    rw [(C16_find_first_of pred2 pre xs post pre2 ys post2).1]; rfl

/-- `search` cuts at the first occurrence of the pattern, `find_end` at the last one. -/
theorem C129_search (pre xs post : List α) (pre2 ys post2 : List β) (pred : α → β → Bool) (v : RetV) :
    (∃ i p, RangeAlg.search v (seg pre xs post) (seg pre2 ys post2) pred = some p ∧
      FirstIdx (MatchAt pred xs ys) xs.length i ∧ Cut v pre xs post i p) ∧
    (∃ i p, RangeAlg.findEnd v (seg pre xs post) (seg pre2 ys post2) pred = some p ∧
      FindEndIdx pred xs ys i ∧ Cut v pre xs post i p) := by
  obtain ⟨i, h1, h2⟩ := (C16_search pred pre xs post pre2 ys post2).1
  obtain ⟨j, h3, h4⟩ := (C16_find_end pred pre xs post pre2 ys post2).1
  have hj : j ≤ xs.length := by
    unfold FindEndIdx at h4
    split at h4
    · exact Nat.le_of_eq h4
    · rcases h4 with h | h
      · exact Nat.le_of_lt h.1
      · exact Nat.le_of_eq h.1
  refine ⟨⟨i, _, ?_, h2, pack_cut v pre xs post _ h2.1⟩, ⟨j, _, ?_, h4, pack_cut v pre xs post _ hj⟩⟩
  · unfold RangeAlg.search
    simp only [seg]
    rw [h1]; rfl
  · unfold RangeAlg.findEnd
    simp only [seg]
    rw [h3]; rfl

/-- `lower_bound`, `upper_bound` and `equal_range` of a range partitioned by the value: the elements
shown are the smaller ones, those not greater, and the equivalent ones. -/
theorem C129_bounds (lt : α → β → Bool) (gt : β → α → Bool) (value : β) (pre A B C post : List α)
    (hA : ∀ x ∈ A, lt x value = true ∧ gt value x = false) (hB : ∀ x ∈ B, lt x value = false ∧ gt value x = false)
    (hC : ∀ x ∈ C, lt x value = false ∧ gt value x = true) (v : RetV) :
    (∃ p, RangeAlg.lowerBound v (seg pre (A ++ B ++ C) post) value lt = some p ∧
      Cut v pre (A ++ B ++ C) post A.length p) ∧
    (∃ p, RangeAlg.upperBound v (seg pre (A ++ B ++ C) post) value gt = some p ∧
      Cut v pre (A ++ B ++ C) post (A ++ B).length p) ∧
    ((RangeAlg.equalRange (seg pre (A ++ B ++ C) post) value lt gt).bind (shows (pre ++ (A ++ B ++ C) ++ post)))
      = some B := by
  refine ⟨?_, ?_, ?_⟩
  · obtain ⟨c, h, _⟩ := C14_lower_bound lt value pre A (B ++ C) post (fun x hx => (hA x hx).1)
      (fun x hx => (List.mem_append.mp hx).elim (fun h => (hB x h).1) (fun h => (hC x h).1))
    rw [← List.append_assoc A B C] at h
    refine ⟨_, ?_, pack_cut v pre _ post _ (by simp)⟩
    unfold RangeAlg.lowerBound
    simp only [seg]
    rw [h]; rfl
  · obtain ⟨c, h, _⟩ := C14_upper_bound gt value pre (A ++ B) C post
      (fun x hx => (List.mem_append.mp hx).elim (fun h => (hA x h).2) (fun h => (hB x h).2)) (fun x hx => (hC x hx).2)
    refine ⟨_, ?_, pack_cut v pre _ post _ (by simp)⟩
    unfold RangeAlg.upperBound
    simp only [seg]
    rw [h]; rfl
  · obtain ⟨c, h, _⟩ := C14_equal_range lt gt value pre A B C post hA hB hC
    unfold RangeAlg.equalRange
    simp only [seg]
    rw [h]
    have := shows_mid pre (A ++ B ++ C) post A.length (A.length + B.length) (by omega) (by simp)
    rw [← Nat.add_assoc] at this
    simpa using this

/-- `is_sorted_until`, `min_element` and `minmax_element` -/
theorem C129_extrema (comp : α → α → Bool) (hc : StrictWeak comp) (pre xs post : List α) (v : RetV) :
    (∃ i p, RangeAlg.isSortedUntil v (seg pre xs post) comp = some p ∧ SortedUntil comp xs i ∧ Cut v pre xs post i p) ∧
    (xs ≠ [] → ∃ i p, RangeAlg.minElement v (seg pre xs post) comp = some p ∧ FirstMin comp xs i ∧
      Cut v pre xs post i p) ∧
    (xs ≠ [] → ∃ i j p q, RangeAlg.minmaxElement v (seg pre xs post) comp = some (p, q) ∧ FirstMin comp xs i ∧
      LastMax comp xs j ∧ Cut v pre xs post i p ∧ Cut v pre xs post j q) := by
  have hlt : ∀ {i : Nat} {x : α}, xs[i]? = some x → i ≤ xs.length := fun h =>
    Nat.le_of_lt (List.getElem?_eq_some_iff.1 h).1
  refine ⟨?_, fun hx => ?_, fun hx => ?_⟩
  · obtain ⟨i, h, h2⟩ := (C18_is_sorted_until comp hc pre xs post).1
    refine ⟨i, _, ?_, h2, pack_cut v pre xs post _ h2.1⟩
    unfold RangeAlg.isSortedUntil
    simp only [seg]
    rw [h]; rfl
  · obtain ⟨i, h, h2⟩ := (C18_min_element comp hc pre xs post hx).1
    refine ⟨i, _, ?_, h2, pack_cut v pre xs post _ (hlt h2.choose_spec.1)⟩
    unfold RangeAlg.minElement
    simp only [seg]
    rw [h]; rfl
  · obtain ⟨i, j, h, h2, h3⟩ := (C18_minmax_element comp hc pre xs post hx).1
    refine ⟨i, j, _, _, ?_, h2, h3, pack_cut v pre xs post _ (hlt h2.choose_spec.1),
      pack_cut v pre xs post _ (hlt h3.choose_spec.1)⟩
    unfold RangeAlg.minmaxElement
    simp only [seg]
    rw [h]; rfl

/-! ## two ranges -/

/-- what `equal` of two ranges has to be: as long, and related element by element -/
def EqualFull (f : ∀ {α β : Type}, Rng α → Rng β → (α → β → Bool) → Option Bool) : Prop :=
  ∀ (pre1 xs post1 pre2 ys post2 : List Nat) (p : Nat → Nat → Bool),
    f (seg pre1 xs post1) (seg pre2 ys post2) p
      = some (decide (xs.length = ys.length) && (List.zipWith p xs ys).all id)

/-- what `mismatch` of two ranges has to be: the first index at which they differ or one of them ends -/
def MismatchFull (f : ∀ {α β : Type}, Rng α → Rng β → (α → β → Bool) → Option (Nat × Nat)) : Prop :=
  ∀ (pre1 xs post1 pre2 ys post2 : List Nat) (p : Nat → Nat → Bool),
    f (seg pre1 xs post1) (seg pre2 ys post2) p
      = some (pre1.length + (List.zipWith p xs ys).findIdx (fun b => !b),
          pre2.length + (List.zipWith p xs ys).findIdx (fun b => !b))

/-- what `is_permutation` of two ranges has to be -/
def IsPermutationFull (f : ∀ {α : Type}, Rng α → Rng α → (α → α → Bool) → Option Bool) : Prop :=
  ∀ (pre1 xs post1 pre2 ys post2 : List Nat),
    f (seg pre1 xs post1) (seg pre2 ys post2) (· == ·) = some (decide (xs.Perm ys))

/-- `equal`, `mismatch` and `is_permutation` are right for ranges of the same length. -/
theorem C129_two_ranges_partial (p : α → β → Bool) (pre1 xs post1 : List α) (pre2 ys post2 : List β)
    (hl : xs.length = ys.length) :
    RangeAlg.equal (seg pre1 xs post1) (seg pre2 ys post2) p
      = some (decide (xs.length = ys.length) && (List.zipWith p xs ys).all id) ∧
    RangeAlg.mismatch (seg pre1 xs post1) (seg pre2 ys post2) p
      = some (pre1.length + (List.zipWith p xs ys).findIdx (fun b => !b),
          pre2.length + (List.zipWith p xs ys).findIdx (fun b => !b)) := by
  refine ⟨?_, (C15_mismatch p pre1 xs post1 pre2 ys post2 (Nat.le_of_eq hl)).1⟩
  rw [decide_eq_true hl, Bool.true_and]
  exact (C15_equal p pre1 xs post1 pre2 ys post2 (Nat.le_of_eq hl)).1

/-- The second range may end too early, and everything behind the length of the first is ignored:
`1` and `1, 2` are equal and permutations of each other, and the comparison of `1, 2` with `1`
reads the element behind the end. -/
theorem C129_two_ranges_refuted :
    ¬ EqualFull RangeAlg.equal ∧ ¬ MismatchFull RangeAlg.mismatch ∧ ¬ IsPermutationFull RangeAlg.isPermutation := by
  refine ⟨fun h => ?_, fun h => ?_, fun h => ?_⟩
  · have h1 := h [] [1] [] [] [1, 2] [] (· == ·)
    have h2 : RangeAlg.equal (seg [] [1] []) (seg [] [1, 2] []) (fun a b : Nat => a == b) = some true :=
      (C15_equal (· == ·) [] [1] [] [] [1, 2] [] (by decide)).1
    exact absurd (h2.symm.trans h1) (by decide)
  · have h1 := h [] [1, 2] [] [] [1] [2] (· == ·)
    have h2 : RangeAlg.mismatch (seg [] [1, 2] []) (seg [] [1] [2]) (· == ·) = some (2, 2) :=
      (C15_mismatch (· == ·) [] [1, 2] [] [] [1, 2] [] (by decide)).1
    exact absurd (h2.symm.trans h1) (by decide)
  · have h1 := h [] [1] [] [] [1, 2] []
    obtain ⟨b, h2, _, h3⟩ := C17_is_permutation (fun a b : Nat => a == b) ⟨by simp, fun a b h => by simp at *; omega, fun a b c h1 h2 => by simp at *; omega⟩ [] [1] [] [] [1] [2] rfl
    have h4 : RangeAlg.isPermutation (seg [] [1] []) (seg [] [1, 2] []) (fun a b : Nat => a == b) = some true := by
      rw [show true = b from (h3.2 (fun _ => rfl)).symm]
      exact h2
    exact absurd (h4.symm.trans h1) (by decide)

/-- With nothing behind the second range the read is undefined behaviour. -/
theorem C129_short_undefined :
    RangeAlg.equal (seg [] [1, 2] []) (seg [] [1] []) (fun a b : Nat => a == b) = none ∧
    RangeAlg.mismatch (seg [] [1, 2] []) (seg [] [1] []) (fun a b : Nat => a == b) = none := by
  have t0 : testAt2 [1, 2] [1] (fun a b : Nat => a == b) 0 0 = some true := rfl
  have t1 : testAt2 [1, 2] [1] (fun a b : Nat => a == b) 1 1 = none := rfl
  constructor
  · show (if 0 = 2 then some true else halveAll (fun i => testAt2 [1, 2] [1] (fun a b : Nat => a == b) i (0 + (i - 0))) 0 2 1) = none
    rw [if_neg (by decide), halveAll.eq_def]
    simp [halveAll.eq_def _ 0 1, halveAll.eq_def _ 1 2, t0, t1]
  · show (if 0 = 2 then some (0, 0) else
      (halveFind (fun i _ => (testAt2 [1, 2] [1] (fun a b : Nat => a == b) i (0 + (i - 0))).map (!·)) 0 2 1 0).bind
        fun f => some (f, 0 + (f - 0))) = none
    rw [if_neg (by decide), halveFind.eq_def]
    simp [halveFind.eq_def _ 0 1, halveFind.eq_def _ 1 2, t0, t1]

/-! Non-vacuity: concrete ranges inside a larger block. -/
example : (RangeAlg.findIf .beginFound (seg [9] [1, 2, 3, 4] [9]) (fun x : Nat => x == 3)).bind (shows [9, 1, 2, 3, 4, 9])
    = some [1, 2] := (C129_find_if_prefix [9] [1, 2, 3, 4] [9] (fun x : Nat => x == 3)).1
example : (RangeAlg.equalRange (seg [9] ([1] ++ [2, 2] ++ [3]) [9]) 2 (fun a b : Nat => decide (a < b))
    (fun a b : Nat => decide (a < b))).bind (shows [9, 1, 2, 2, 3, 9]) = some [2, 2] :=
  (C129_bounds (fun a b : Nat => decide (a < b)) (fun a b : Nat => decide (a < b)) 2 [9] [1] [2, 2] [3] [9]
    (by decide) (by decide) (by decide) .found).2.2
example : ∃ p, RangeAlg.adjacentFind .foundEnd (seg [9] [1, 2, 2, 3] [9]) (fun a b : Nat => a == b) = some p ∧
    shows [9, 1, 2, 2, 3, 9] p = some [2, 2, 3] :=
  (C129_adjacent_first_of [9] [1, 2, 2, 3] [9] ([] : List Nat) [] [] (fun a b : Nat => a == b) (fun _ _ => true)
    .foundEnd).1

end Sprout
