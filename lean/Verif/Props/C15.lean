import Verif.Proofs.Find2

/-!
# C15: the find family agrees with the left-to-right scan

In every statement the range is the segment `xs` of a block `pre ++ xs ++ post`, given by the
iterators `pre.length` and `pre.length + xs.length`. The outcome is never `none` (undefined
behaviour or divergence) and is the value of the sequential list function.
`Ra` = random-access (halving) version, `In` = input-iterator (doubling) version.
-/

namespace Sprout
variable {α β : Type}

theorem C15_find_if (p : α → Bool) (pre xs post : List α) :
    findIfRa (pre ++ xs ++ post) pre.length (pre.length + xs.length) p = some (pre.length + xs.findIdx p) ∧
    findIfIn (pre ++ xs ++ post) pre.length (pre.length + xs.length) p = some (pre.length + xs.findIdx p) :=
  ⟨findIfRa_eq .., findIfIn_eq ..⟩

theorem C15_find_if_not (p : α → Bool) (pre xs post : List α) :
    findIfNotRa (pre ++ xs ++ post) pre.length (pre.length + xs.length) p
      = some (pre.length + xs.findIdx (fun x => !p x)) ∧
    findIfNotIn (pre ++ xs ++ post) pre.length (pre.length + xs.length) p
      = some (pre.length + xs.findIdx (fun x => !p x)) :=
  ⟨findIfRa_eq .., findIfIn_eq ..⟩

theorem C15_find [BEq α] (v : α) (pre xs post : List α) :
    findValRa (pre ++ xs ++ post) pre.length (pre.length + xs.length) v
      = some (pre.length + xs.findIdx (fun x => x == v)) ∧
    findValIn (pre ++ xs ++ post) pre.length (pre.length + xs.length) v
      = some (pre.length + xs.findIdx (fun x => x == v)) :=
  ⟨findIfRa_eq .., findIfIn_eq ..⟩

/-- `count_if`, and `count` as the instance `p x := (x == v)`. -/
theorem C15_count_if (p : α → Bool) (pre xs post : List α) :
    countIfRa (pre ++ xs ++ post) pre.length (pre.length + xs.length) p = some (xs.countP p) ∧
    countIfIn (pre ++ xs ++ post) pre.length (pre.length + xs.length) p = some (xs.countP p) :=
  ⟨countIfRa_eq .., countIfIn_eq ..⟩

theorem C15_all_of (p : α → Bool) (pre xs post : List α) :
    allOfRa (pre ++ xs ++ post) pre.length (pre.length + xs.length) p = some (xs.all p) ∧
    allOfIn (pre ++ xs ++ post) pre.length (pre.length + xs.length) p = some (xs.all p) :=
  ⟨allOfRa_eq .., allOfIn_eq ..⟩

theorem C15_any_of (p : α → Bool) (pre xs post : List α) :
    anyOfRa (pre ++ xs ++ post) pre.length (pre.length + xs.length) p = some (xs.any p) ∧
    anyOfIn (pre ++ xs ++ post) pre.length (pre.length + xs.length) p = some (xs.any p) :=
  ⟨anyOfRa_eq .., anyOfIn_eq ..⟩

theorem C15_none_of (p : α → Bool) (pre xs post : List α) :
    noneOfRa (pre ++ xs ++ post) pre.length (pre.length + xs.length) p = some (!xs.any p) ∧
    noneOfIn (pre ++ xs ++ post) pre.length (pre.length + xs.length) p = some (!xs.any p) :=
  ⟨noneOfRa_eq .., noneOfIn_eq ..⟩

/-- three-iterator `mismatch`: the second range must be at least as long as the first -/
theorem C15_mismatch (p : α → β → Bool) (pre1 xs post1 : List α) (pre2 ys post2 : List β)
    (hl : xs.length ≤ ys.length) :
    let d := (List.zipWith p xs ys).findIdx (fun b => !b)
    mismatchRa (pre1 ++ xs ++ post1) (pre2 ++ ys ++ post2) p pre1.length (pre1.length + xs.length) pre2.length
      = some (pre1.length + d, pre2.length + d) ∧
    mismatchIn (pre1 ++ xs ++ post1) (pre2 ++ ys ++ post2) p pre1.length (pre1.length + xs.length) pre2.length
      = some (pre1.length + d, pre2.length + d) :=
  ⟨mismatchRa_eq p pre1 xs post1 pre2 ys post2 hl, mismatchIn_eq p pre1 xs post1 pre2 ys post2 hl⟩

/-- four-iterator `mismatch` -/
theorem C15_mismatch2 (p : α → β → Bool) (pre1 xs post1 : List α) (pre2 ys post2 : List β) :
    let d := (List.zipWith p xs ys).findIdx (fun b => !b)
    mismatch2Ra (pre1 ++ xs ++ post1) (pre2 ++ ys ++ post2) p pre1.length (pre1.length + xs.length)
      pre2.length (pre2.length + ys.length) = some (pre1.length + d, pre2.length + d) ∧
    mismatch2In (pre1 ++ xs ++ post1) (pre2 ++ ys ++ post2) p pre1.length (pre1.length + xs.length)
      pre2.length (pre2.length + ys.length) = some (pre1.length + d, pre2.length + d) :=
  ⟨mismatch2Ra_eq .., mismatch2In_eq ..⟩

/-- three-iterator `equal` -/
theorem C15_equal (p : α → β → Bool) (pre1 xs post1 : List α) (pre2 ys post2 : List β)
    (hl : xs.length ≤ ys.length) :
    equalRa (pre1 ++ xs ++ post1) (pre2 ++ ys ++ post2) p pre1.length (pre1.length + xs.length) pre2.length
      = some ((List.zipWith p xs ys).all id) ∧
    equalIn (pre1 ++ xs ++ post1) (pre2 ++ ys ++ post2) p pre1.length (pre1.length + xs.length) pre2.length
      = some ((List.zipWith p xs ys).all id) :=
  ⟨equalRa_eq p pre1 xs post1 pre2 ys post2 hl, equalIn_eq p pre1 xs post1 pre2 ys post2 hl⟩

/-- four-iterator `equal` -/
theorem C15_equal2 (p : α → β → Bool) (pre1 xs post1 : List α) (pre2 ys post2 : List β) :
    equal2Ra (pre1 ++ xs ++ post1) (pre2 ++ ys ++ post2) p pre1.length (pre1.length + xs.length)
      pre2.length (pre2.length + ys.length)
      = some (decide (xs.length = ys.length) && (List.zipWith p xs ys).all id) ∧
    equal2In (pre1 ++ xs ++ post1) (pre2 ++ ys ++ post2) p pre1.length (pre1.length + xs.length)
      pre2.length (pre2.length + ys.length)
      = some (decide (xs.length = ys.length) && (List.zipWith p xs ys).all id) :=
  ⟨equal2Ra_eq .., equal2In_eq ..⟩

/-! Non-vacuity: concrete runs inside a larger block. -/
example : findIfRa [9, 1, 2, 3, 9] 1 4 (· == 9) = some 4 := (C15_find_if (· == 9) [9] [1, 2, 3] [9]).1
example : findIfIn [9, 1, 2, 3, 9] 1 4 (· == 3) = some 3 := (C15_find_if (· == 3) [9] [1, 2, 3] [9]).2
example : countIfRa [9, 1, 9, 3, 9] 1 4 (· == 9) = some 1 := (C15_count_if (· == 9) [9] [1, 9, 3] [9]).1
example : mismatchRa [1, 2, 3] [0, 1, 2, 4] (· == ·) 0 3 1 = some (2, 3) :=
  (C15_mismatch (· == ·) [] [1, 2, 3] [] [0] [1, 2, 4] [] (by simp)).1
example : equal2In [1, 2, 3] [1, 2] (· == ·) 0 3 0 2 = some false :=
  (C15_equal2 (· == ·) [] [1, 2, 3] [] [] [1, 2] []).2

end Sprout
