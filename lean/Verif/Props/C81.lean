import Verif.Proofs.Adaptor

/-!
# C81: iterator adaptors with random access

`At s k`: the state `s` stands at position `k`; the statements about the operations are those of `Verif/Spec/Iter.lean`.
-/

namespace Sprout
open Adaptor Spec
variable {α β γ : Type}

/-! ### reverse_iterator -/

/-- position `k` from the end -/
def RevAt (xs : List α) (c k : Nat) : Prop := c + k = xs.length

/-- `reverse_iterator` presents the reversed range; `rbegin` is at 0 and `rend` at the end. *Partial*: all operations but
`operator<` and its kin. -/
theorem C81_reverse_partial (xs : List α) :
    RevAt xs xs.length 0 ∧ RevAt xs 0 xs.reverse.length ∧ IterDeref (revDeref xs) xs.reverse (RevAt xs) ∧
    IterNext (revNext xs) xs.reverse (RevAt xs) ∧ IterPrev (revPrev xs) (RevAt xs) ∧ IterAdd (revAdd xs) xs.reverse (RevAt xs) ∧
    IterSub (revSub xs) xs.reverse (RevAt xs) ∧ IterDiff revDiff (RevAt xs) ∧ IterEq revEq (RevAt xs) ∧
    IterIndex (revIndex xs) xs.reverse (RevAt xs) := by
  refine ⟨rfl, by simp [RevAt], ?_, ?_, ?_, ?_, ?_, ?_, ?_, ?_⟩
  · intro s k hs h
    unfold RevAt at hs
    rw [List.length_reverse] at h
    rw [revDeref, padd_of (q := xs.length - 1 - k) (by omega) (by omega), Option.bind_eq_bind, Option.bind_some, rd_eq (by omega), List.getElem_reverse]
  · intro s k hs h
    unfold RevAt at hs ⊢
    rw [List.length_reverse] at h
    exact ⟨s - 1, padd_of (by omega) (by omega), by omega⟩
  · intro s k hs
    unfold RevAt at hs ⊢
    exact ⟨s + 1, padd_of (by omega) (by omega), by omega⟩
  · intro s k j hs h
    unfold RevAt at hs ⊢
    rw [List.length_reverse] at h
    exact ⟨xs.length - j, padd_of (by omega) (by omega), by omega⟩
  · intro s k j hs h
    unfold RevAt at hs ⊢
    rw [List.length_reverse] at h
    exact ⟨xs.length - j, padd_of (by omega) (by omega), by omega⟩
  · intro s k t l hs ht
    unfold RevAt at hs ht
    rw [revDiff]
    congr 1
    omega
  · intro s k t l hs ht
    unfold RevAt at hs ht
    rw [revEq, beq_iff_eq]
    omega
  · intro s k j hs h
    unfold RevAt at hs
    rw [List.length_reverse] at h
    rw [revIndex, padd_of (q := xs.length - 1 - j) (by omega) (by omega), Option.bind_eq_bind, Option.bind_some, rd_eq (by omega), List.getElem_reverse]

example : revDeref [1, 2, 3] 3 = some 3 ∧ revAdd [1, 2, 3] 3 2 = some 1 ∧ revIndex [1, 2, 3] 3 2 = some 1 ∧ revDiff 0 3 = some 3 := by decide

/-- `operator<` compares the underlying positions without turning them round: the later position is less -/
theorem C81_reverse_lt_refuted (xs : List α) (s k t l : Nat) (hs : RevAt xs s k) (ht : RevAt xs t l) : revLt s t = true ↔ l < k := by
  unfold RevAt at hs ht
  rw [revLt, decide_eq_true_iff]
  omega

/-! ### transform_iterator -/

/-- one range: the position in it -/
def MapAt (xs : List α) (c k : Nat) : Prop := c = k ∧ k ≤ xs.length

theorem C81_transform (f : α → β) (xs : List α) :
    MapAt xs 0 0 ∧ MapAt xs xs.length (xs.map f).length ∧ IterDeref (mapDeref f xs) (xs.map f) (MapAt xs) ∧
    IterNext (mapNext xs) (xs.map f) (MapAt xs) ∧ IterPrev (mapPrev xs) (MapAt xs) ∧ IterAdd (mapAdd xs) (xs.map f) (MapAt xs) ∧
    IterSub (mapSub xs) (xs.map f) (MapAt xs) ∧ IterDiff mapDiff (MapAt xs) ∧ IterEq mapEq (MapAt xs) ∧ IterLt mapLt (MapAt xs) ∧
    IterIndex (mapIndex f xs) (xs.map f) (MapAt xs) := by
  refine ⟨⟨rfl, Nat.zero_le _⟩, ⟨by simp, by simp⟩, ?_, ?_, ?_, ?_, ?_, ?_, ?_, ?_, ?_⟩
  · rintro s k ⟨rfl, -⟩ h
    rw [List.length_map] at h
    rw [mapDeref, rd_eq h, Option.map_some, List.getElem_map]
  · rintro s k ⟨rfl, -⟩ h
    rw [List.length_map] at h
    exact ⟨s + 1, padd_of (by omega) (by omega), rfl, h⟩
  · rintro s k ⟨rfl, h⟩
    exact ⟨k, padd_of (by omega) (by omega), rfl, by omega⟩
  · rintro s k j ⟨rfl, -⟩ h
    rw [List.length_map] at h
    exact ⟨j, padd_of (by omega) (by omega), rfl, h⟩
  · rintro s k j ⟨rfl, -⟩ h
    rw [List.length_map] at h
    exact ⟨j, padd_of (by omega) (by omega), rfl, h⟩
  · rintro s k t l ⟨rfl, -⟩ ⟨rfl, -⟩
    rfl
  · rintro s k t l ⟨rfl, -⟩ ⟨rfl, -⟩
    simp [mapEq]
  · rintro s k t l ⟨rfl, -⟩ ⟨rfl, -⟩
    simp [mapLt]
  · rintro s k j ⟨rfl, -⟩ h
    rw [List.length_map] at h
    rw [mapIndex, pindex, padd_of (q := j) (by omega) (by omega), Option.bind_eq_bind, Option.bind_some, rd_eq h, Option.map_some, List.getElem_map]

example : mapDeref (· * 2) [1, 2, 3] 1 = some 4 ∧ mapIndex (· * 2) [1, 2, 3] 2 (-2) = some 2 := by decide

/-- two ranges: the same position in both -/
def ZipAt (xs : List α) (ys : List β) (s : Nat × Nat) (k : Nat) : Prop := s = (k, k) ∧ k ≤ min xs.length ys.length

theorem C81_transform2 (f : α → β → γ) (xs : List α) (ys : List β) :
    ZipAt xs ys (0, 0) 0 ∧ IterDeref (zipDeref f xs ys) (List.zipWith f xs ys) (ZipAt xs ys) ∧
    IterNext (zipAdd xs ys · 1) (List.zipWith f xs ys) (ZipAt xs ys) ∧ IterPrev (zipSub xs ys · 1) (ZipAt xs ys) ∧
    IterAdd (zipAdd xs ys) (List.zipWith f xs ys) (ZipAt xs ys) ∧ IterSub (zipSub xs ys) (List.zipWith f xs ys) (ZipAt xs ys) ∧
    IterDiff zipDiff (ZipAt xs ys) ∧ IterEq zipEq (ZipAt xs ys) ∧ IterLt zipLt (ZipAt xs ys) ∧
    IterIndex (zipIndex f xs ys) (List.zipWith f xs ys) (ZipAt xs ys) := by
  refine ⟨⟨rfl, Nat.zero_le _⟩, ?_, ?_, ?_, ?_, ?_, ?_, ?_, ?_, ?_⟩
  · rintro s k ⟨rfl, -⟩ h
    rw [List.length_zipWith] at h
    simp only [zipDeref]
    rw [rd_eq (by omega), rd_eq (by omega), List.getElem_zipWith]; rfl
  · rintro s k ⟨rfl, -⟩ h
    rw [List.length_zipWith] at h
    refine ⟨(k + 1, k + 1), ?_, rfl, h⟩
    simp only [zipAdd]
    rw [padd_of (q := k + 1) (by omega) (by omega), padd_of (q := k + 1) (by omega) (by omega)]; rfl
  · rintro s k ⟨rfl, h⟩
    refine ⟨(k, k), ?_, rfl, by omega⟩
    simp only [zipSub]
    rw [padd_of (q := k) (by omega) (by omega), padd_of (q := k) (by omega) (by omega)]; rfl
  · rintro s k j ⟨rfl, -⟩ h
    rw [List.length_zipWith] at h
    refine ⟨(j, j), ?_, rfl, h⟩
    simp only [zipAdd]
    rw [padd_of (q := j) (by omega) (by omega), padd_of (q := j) (by omega) (by omega)]; rfl
  · rintro s k j ⟨rfl, -⟩ h
    rw [List.length_zipWith] at h
    refine ⟨(j, j), ?_, rfl, h⟩
    simp only [zipSub]
    rw [padd_of (q := j) (by omega) (by omega), padd_of (q := j) (by omega) (by omega)]; rfl
  · rintro s k t l ⟨rfl, -⟩ ⟨rfl, -⟩
    rfl
  · rintro s k t l ⟨rfl, -⟩ ⟨rfl, -⟩
    simp [zipEq]
  · rintro s k t l ⟨rfl, -⟩ ⟨rfl, -⟩
    simp [zipLt]
  · rintro s k j ⟨rfl, -⟩ h
    rw [List.length_zipWith] at h
    simp only [zipIndex, pindex]
    rw [padd_of (q := j) (by omega) (by omega), padd_of (q := j) (by omega) (by omega), List.getElem_zipWith]
    simp only [Option.bind_eq_bind, Option.bind_some]
    rw [rd_eq (by omega), rd_eq (by omega)]; rfl

example : zipDeref (· + ·) [1, 2] [10, 20, 30] (1, 1) = some 22 ∧ zipAdd [1, 2] [10, 20, 30] (0, 0) 2 = some (2, 2) := by decide

/-! ### joint_iterator -/

/-- in the left range until its end, then in the right range -/
def JointAt (xs ys : List α) (s : Nat × Nat) (k : Nat) : Prop := s = (min k xs.length, k - xs.length) ∧ k ≤ xs.length + ys.length

private theorem jInLeft_at (xs : List α) (k : Nat) : jInLeft xs (min k xs.length, k - xs.length) = decide (k < xs.length) := by
  rw [jInLeft, Bool.eq_iff_iff]
  simp
  omega

/-- `joint_iterator` presents the concatenation. *Partial*: all operations but the difference. -/
theorem C81_joint_partial (xs ys : List α) :
    JointAt xs ys (0, 0) 0 ∧ JointAt xs ys (xs.length, ys.length) (xs ++ ys).length ∧ IterDeref (jDeref xs ys) (xs ++ ys) (JointAt xs ys) ∧
    IterNext (jNext xs ys) (xs ++ ys) (JointAt xs ys) ∧ IterPrev (jPrev xs ys) (JointAt xs ys) ∧ IterAdd (jAdd xs ys) (xs ++ ys) (JointAt xs ys) ∧
    IterSub (jSub xs ys) (xs ++ ys) (JointAt xs ys) ∧ IterEq jEq (JointAt xs ys) ∧ IterLt (jLt xs) (JointAt xs ys) ∧
    IterIndex (jIndex xs ys) (xs ++ ys) (JointAt xs ys) := by
  have hd : IterDeref (jDeref xs ys) (xs ++ ys) (JointAt xs ys) := by
    rintro s k ⟨rfl, -⟩ h
    rw [List.length_append] at h
    rw [jDeref, jInLeft_at]
    by_cases hk : k < xs.length
    · rw [if_pos (by simp; omega)]
      simp only [show min k xs.length = k by omega]
      rw [rd_eq hk, List.getElem_append_left hk]
    · rw [if_neg (by simp; omega)]
      dsimp only
      rw [rd_eq (by omega), List.getElem_append_right (by omega)]
  have ha : IterAdd (jAdd xs ys) (xs ++ ys) (JointAt xs ys) := by
    rintro s k j ⟨rfl, hk⟩ h
    rw [List.length_append] at h
    refine ⟨(min j xs.length, j - xs.length), ?_, rfl, h⟩
    rw [jAdd, jInLeft_at]
    dsimp only
    by_cases h1 : (j : Int) - k ≥ 0
    · rw [if_pos h1]
      by_cases h2 : k < xs.length
      · rw [if_pos (by simp; omega)]
        by_cases h3 : (j : Int) - k > xs.length - (min k xs.length : Nat)
        · rw [if_pos h3, padd_of (q := j - xs.length) (by omega) (by omega), Option.map_some, show min j xs.length = xs.length by omega]
        · rw [if_neg h3, padd_of (q := min j xs.length) (by omega) (by omega), Option.map_some, show k - xs.length = j - xs.length by omega]
      · rw [if_neg (by simp; omega), padd_of (q := j - xs.length) (by omega) (by omega), Option.map_some, show min j xs.length = min k xs.length by omega]
    · rw [if_neg h1]
      by_cases h2 : k - xs.length = 0
      · rw [if_pos h2, padd_of (q := min j xs.length) (by omega) (by omega), Option.map_some, show k - xs.length = j - xs.length by omega]
      · rw [if_neg h2]
        by_cases h3 : (j : Int) - k > -((k - xs.length : Nat) : Int)
        · rw [if_neg (by simpa using h3), padd_of (q := j - xs.length) (by omega) (by omega), Option.map_some, show min j xs.length = min k xs.length by omega]
        · rw [if_pos h3, padd_of (q := min j xs.length) (by omega) (by omega), Option.map_some, show j - xs.length = 0 by omega]
  refine ⟨⟨by simp, by simp⟩, ⟨by simp, by simp⟩, hd, ?_, ?_, ha, ?_, ?_, ?_, ?_⟩
  · rintro s k ⟨rfl, -⟩ h
    rw [List.length_append] at h
    refine ⟨(min (k + 1) xs.length, k + 1 - xs.length), ?_, rfl, h⟩
    rw [jNext, jInLeft_at]
    dsimp only
    by_cases h2 : k < xs.length
    · rw [if_pos (by simp; omega), padd_of (q := min (k + 1) xs.length) (by omega) (by omega), Option.map_some, show k + 1 - xs.length = k - xs.length by omega]
    · rw [if_neg (by simp; omega), padd_of (q := k + 1 - xs.length) (by omega) (by omega), Option.map_some, show min (k + 1) xs.length = min k xs.length by omega]
  · rintro s k ⟨rfl, h⟩
    refine ⟨(min k xs.length, k - xs.length), ?_, rfl, by omega⟩
    rw [jPrev]
    dsimp only
    by_cases h2 : k + 1 - xs.length = 0
    · rw [if_pos h2, padd_of (q := min k xs.length) (by omega) (by omega), Option.map_some, show k + 1 - xs.length = k - xs.length by omega]
    · rw [if_neg h2, padd_of (q := k - xs.length) (by omega) (by omega), Option.map_some, show min (k + 1) xs.length = min k xs.length by omega]
  · intro s k j hs h
    rw [jSub, show -((k : Int) - j) = j - k by omega]
    exact ha s k j hs h
  · rintro s k t l ⟨rfl, hk⟩ ⟨rfl, hl⟩
    simp only [jEq, Bool.and_eq_true, beq_iff_eq]
    omega
  · rintro s k t l ⟨rfl, hk⟩ ⟨rfl, hl⟩
    simp only [jLt, jInLeft_at]
    by_cases h1 : k < xs.length <;> by_cases h2 : l < xs.length
    · rw [if_pos (by simp; omega), decide_eq_true_iff]; omega
    · rw [if_neg (by simp; omega), if_neg (by simp; omega)]; simp; omega
    · rw [if_neg (by simp; omega), if_neg (by simp; omega)]; simp; omega
    · rw [if_neg (by simp; omega), if_pos (by simp; omega), decide_eq_true_iff]; omega
  · intro s k j hs h
    obtain ⟨t, e, ht⟩ := ha s k j hs (by omega)
    rw [jIndex, e, Option.bind_eq_bind, Option.bind_some]
    exact hd t j ht h

example : jAdd [1, 2] [3, 4, 5] (1, 0) 3 = some (2, 2) ∧ jAdd [1, 2] [3, 4, 5] (2, 2) (-3) = some (1, 0) ∧ jIndex [1, 2] [3, 4, 5] (0, 0) 3 = some 4 := by decide

/-- the difference. *Partial*: the left operand is not in the left range with the right operand in the right range. -/
theorem C81_joint_diff_partial (xs ys : List α) (hx : xs.length + ys.length < 2 ^ 63) (s : Nat × Nat) (k : Nat) (t : Nat × Nat) (l : Nat)
    (hs : JointAt xs ys s k) (ht : JointAt xs ys t l) (h : xs.length ≤ k ∨ l < xs.length) : jDiff xs s t = some ((k : Int) - l) := by
  obtain ⟨rfl, hk⟩ := hs
  obtain ⟨rfl, hl⟩ := ht
  simp only [jDiff, jInLeft_at]
  by_cases h1 : k < xs.length
  · rw [if_pos (by simp; omega)]
    congr 1
    omega
  · rw [if_neg (by simp; omega)]
    by_cases h2 : l < xs.length
    · rw [if_neg (by simp; omega), if_neg (by simp; omega), limitedPlus_eq (by omega) (by omega) (by omega) (by omega) (by omega) (by omega)]
      congr 1
      omega
    · rw [if_pos (by simp; omega)]
      congr 1
      omega

/-- otherwise the sign is wrong: `begin - end` is the size instead of its negative -/
theorem C81_joint_diff_refuted (xs ys : List α) (hx : xs.length + ys.length < 2 ^ 63) (s : Nat × Nat) (k : Nat) (t : Nat × Nat) (l : Nat)
    (hs : JointAt xs ys s k) (ht : JointAt xs ys t l) (h : k < xs.length) (h' : xs.length ≤ l) : jDiff xs s t = some ((l : Int) - k) := by
  obtain ⟨rfl, hk⟩ := hs
  obtain ⟨rfl, hl⟩ := ht
  simp only [jDiff, jInLeft_at]
  rw [if_neg (by simp; omega), if_neg (by simp; omega), if_pos (by simp; omega), limitedPlus_eq (by omega) (by omega) (by omega) (by omega) (by omega) (by omega)]
  congr 1
  omega

example : jDiff [1, 2] (2, 3) (0, 0) = some 5 ∧ jDiff [1, 2] (0, 0) (2, 3) = some 5 := by decide

/-! ### alternate_iterator -/

/-- the same position in both ranges, and the side -/
def AltAt (xs ys : List α) (s : Nat × Nat × Bool) (k : Nat) : Prop :=
  s = (k / 2, k / 2, k % 2 == 0) ∧ k ≤ 2 * min xs.length ys.length

/-- `alternate_iterator` presents the elements of both ranges in turn. *Partial*: dereferencing, the steps and comparison. -/
theorem C81_alternate_partial (xs ys : List α) :
    AltAt xs ys (0, 0, true) 0 ∧ AltAt xs ys (min xs.length ys.length, min xs.length ys.length, true) (interleave xs ys).length ∧
    IterDeref (altDeref xs ys) (interleave xs ys) (AltAt xs ys) ∧
    IterNext (altNext xs ys) (interleave xs ys) (AltAt xs ys) ∧ IterPrev (altPrev xs ys) (AltAt xs ys) ∧
    IterEq altEq (AltAt xs ys) ∧ IterLt altLt (AltAt xs ys) := by
  refine ⟨⟨rfl, Nat.zero_le _⟩, ⟨?_, Nat.le_of_eq (interleave_length xs ys)⟩, ?_, ?_, ?_, ?_, ?_⟩
  · rw [interleave_length, Nat.mul_div_cancel_left _ (by omega), Nat.mul_mod_right]; rfl
  · rintro s k ⟨rfl, -⟩ h
    rw [interleave_get, altDeref]
    rw [interleave_length] at h
    by_cases hk : k % 2 = 0
    · rw [if_pos (by simpa using hk), if_pos hk]; rfl
    · rw [if_neg (by simpa using hk), if_neg hk]; rfl
  · rintro s k ⟨rfl, -⟩ h
    rw [interleave_length] at h
    refine ⟨((k + 1) / 2, (k + 1) / 2, (k + 1) % 2 == 0), ?_, rfl, by omega⟩
    rw [altNext]
    by_cases hk : k % 2 = 0
    · rw [if_pos (by simpa using hk), show (k + 1) / 2 = k / 2 by omega, show (k + 1) % 2 = 1 by omega]; rfl
    · rw [if_neg (by simpa using hk), show (k + 1) % 2 = 0 by omega]
      dsimp only
      rw [padd_of (q := (k + 1) / 2) (by omega) (by omega), padd_of (q := (k + 1) / 2) (by omega) (by omega)]
      rfl
  · rintro s k ⟨rfl, h⟩
    refine ⟨(k / 2, k / 2, k % 2 == 0), ?_, rfl, by omega⟩
    rw [altPrev]
    by_cases hk : k % 2 = 0
    · rw [if_neg (by simp; omega), show (k + 1) / 2 = k / 2 by omega, hk]; rfl
    · rw [if_pos (by simp; omega), show k % 2 = 1 by omega]
      dsimp only
      rw [padd_of (q := k / 2) (by omega) (by omega), padd_of (q := k / 2) (by omega) (by omega)]
      rfl
  · rintro s k t l ⟨rfl, -⟩ ⟨rfl, -⟩
    simp only [altEq, Bool.and_eq_true, beq_iff_eq]
    rcases Nat.mod_two_eq_zero_or_one k with h | h <;> rcases Nat.mod_two_eq_zero_or_one l with h' | h' <;> simp [h, h'] <;> omega
  · rintro s k t l ⟨rfl, -⟩ ⟨rfl, -⟩
    simp only [altLt, Bool.or_eq_true, Bool.and_eq_true, beq_iff_eq, decide_eq_true_iff]
    rcases Nat.mod_two_eq_zero_or_one k with h | h <;> rcases Nat.mod_two_eq_zero_or_one l with h' | h' <;> simp [h, h'] <;> omega

example : altDeref [1, 2] [3, 4] (1, 1, false) = some 4 ∧ altNext [1, 2] [3, 4] (0, 0, false) = some (1, 1, true) ∧ interleave [1, 2] [3, 4] = [1, 3, 2, 4] := by decide

/-- `s + n`. *Partial*: counted from the left element of the current pair, the distance is even or not negative. -/
theorem C81_alternate_add_partial (xs ys : List α) (s : Nat × Nat × Bool) (k j : Nat) (hs : AltAt xs ys s k) (hj : j ≤ (interleave xs ys).length)
    (h : k / 2 * 2 ≤ j ∨ j % 2 = 0) : ∃ s', altAdd xs ys s ((j : Int) - k) = some s' ∧ AltAt xs ys s' j := by
  obtain ⟨rfl, hk⟩ := hs
  rw [interleave_length] at hj
  have e : ((j : Int) - k + if !(k % 2 == 0) then 1 else 0) = (j : Int) - (k / 2 * 2 : Nat) := by
    rcases Nat.mod_two_eq_zero_or_one k with h' | h' <;> simp [h'] <;> omega
  refine ⟨(j / 2, j / 2, j % 2 == 0), ?_, rfl, hj⟩
  simp only [altAdd]
  rw [e]
  have e2 : ((j : Int) - (k / 2 * 2 : Nat)).tdiv 2 = (j / 2 : Nat) - (k / 2 : Nat) := by
    rcases h with h | h
    · rw [Int.tdiv_eq_ediv_of_nonneg (by omega)]; omega
    · rw [show (j : Int) - (k / 2 * 2 : Nat) = 2 * ((j / 2 : Nat) - (k / 2 : Nat)) by omega, Int.mul_tdiv_cancel_left _ (by omega)]
  have e3 : (((j : Int) - (k / 2 * 2 : Nat)).tmod 2 == 0) = (j % 2 == 0) := by
    have := Int.mul_tdiv_add_tmod ((j : Int) - (k / 2 * 2 : Nat)) 2
    rw [e2] at this
    rcases Nat.mod_two_eq_zero_or_one j with h' | h'
    · rw [h', show ((j : Int) - (k / 2 * 2 : Nat)).tmod 2 = 0 by omega]; rfl
    · rw [h', show ((j : Int) - (k / 2 * 2 : Nat)).tmod 2 = 1 by omega]; rfl
  rw [e2, e3, padd_of (q := j / 2) (by omega) (by omega), padd_of (q := j / 2) (by omega) (by omega)]
  rfl

example : altAdd [1, 2] [3, 4] (0, 0, false) 2 = some (1, 1, false) := by decide

/-- otherwise: the division truncates towards zero, and the result is two elements behind the right one -/
theorem C81_alternate_add_refuted (xs ys : List α) (s : Nat × Nat × Bool) (k j : Nat) (hs : AltAt xs ys s k) (hj : j < k / 2 * 2) (h : j % 2 = 1) :
    altAdd xs ys s ((j : Int) - k) = some ((j + 2) / 2, (j + 2) / 2, (j + 2) % 2 == 0) := by
  obtain ⟨rfl, hk⟩ := hs
  have e : ((j : Int) - k + if !(k % 2 == 0) then 1 else 0) = -(2 * ((k / 2 : Nat) - (j / 2 : Nat) - 1 : Int) + 1) := by
    rcases Nat.mod_two_eq_zero_or_one k with h' | h' <;> simp [h'] <;> omega
  simp only [altAdd]
  rw [e, Int.neg_tdiv, Int.neg_tmod, Int.tdiv_eq_ediv_of_nonneg (by omega), Int.tmod_eq_emod_of_nonneg (by omega),
    padd_of (q := (j + 2) / 2) (by omega) (by omega), padd_of (q := (j + 2) / 2) (by omega) (by omega), show (j + 2) % 2 = 1 by omega,
    show (2 * ((k / 2 : Nat) - (j / 2 : Nat) - 1 : Int) + 1) % 2 = 1 by omega]
  rfl

/-- from the left element of the second pair, `- 1` goes to the right element of the second pair -/
example : altSub [1, 2] [3, 4] (1, 1, true) 1 = some (1, 1, false) := by decide

/-- the difference of a left and a right state of the same pair has the wrong sign -/
theorem C81_alternate_diff_refuted : altDiff (0, 0, true) (0, 0, false) = some 1 := by decide

/-- the difference to the next pair divides the least number by `-1`: undefined behaviour -/
theorem C81_alternate_diff_ub (c : Nat) (a b : Bool) : altDiff (c, c, a) (c + 1, c + 1, b) = none := by
  have e : ((c : Int) - (c + 1 : Nat)) = -1 := by omega
  simp only [altDiff]
  rw [e, show limitedMul .int64 (-1) 2 = none by decide]
  rfl

/-! ### size_enum_iterator with separators -/

/-- position `2 i`: the element `i`; position `2 i + 1`: the separator behind it -/
def EnumAt (xs : List α) (s : Nat × Bool) (k : Nat) : Prop := s = (k / 2, k % 2 == 1) ∧ k ≤ 2 * xs.length

/-- sizes with separators behind -/
def sizesSep (size : α → Int) (sep : Int) (xs : List α) : List Int := interleave (xs.map size) (List.replicate xs.length sep)

private theorem sizesSep_length (size : α → Int) (sep : Int) (xs : List α) : (sizesSep size sep xs).length = 2 * xs.length := by
  rw [sizesSep, interleave_length]; simp

/-- *Partial*: dereferencing, the steps and comparison. -/
theorem C81_size_enum_partial (size : α → Int) (sep : Int) (xs : List α) :
    EnumAt xs (0, false) 0 ∧ EnumAt xs (xs.length, false) (sizesSep size sep xs).length ∧
    IterDeref (seDeref size sep xs) (sizesSep size sep xs) (EnumAt xs) ∧
    IterNext (seNext xs) (sizesSep size sep xs) (EnumAt xs) ∧ IterPrev (sePrev xs) (EnumAt xs) ∧
    IterEq seEq (EnumAt xs) ∧ IterLt seLt (EnumAt xs) := by
  have hl := sizesSep_length size sep xs
  refine ⟨⟨rfl, Nat.zero_le _⟩, ⟨?_, Nat.le_of_eq hl⟩, ?_, ?_, ?_, ?_, ?_⟩
  · rw [hl, Nat.mul_div_cancel_left _ (by omega), Nat.mul_mod_right]; rfl
  · rintro s k ⟨rfl, -⟩ h
    simp only [sizesSep]
    rw [interleave_get, seDeref]
    rw [hl] at h
    rcases Nat.mod_two_eq_zero_or_one k with hk | hk
    · rw [if_neg (by simp [hk]), if_pos hk, List.getElem?_map]; rfl
    · rw [if_pos (by simp [hk]), if_neg (by omega), List.getElem?_replicate, if_pos (by omega)]
  · rintro s k ⟨rfl, -⟩ h
    rw [hl] at h
    refine ⟨((k + 1) / 2, (k + 1) % 2 == 1), ?_, rfl, by omega⟩
    rw [seNext]
    rcases Nat.mod_two_eq_zero_or_one k with hk | hk
    · rw [if_neg (by simp [hk]), show (k + 1) / 2 = k / 2 by omega, show (k + 1) % 2 = 1 by omega]; rfl
    · rw [if_pos (by simp [hk]), padd_of (q := (k + 1) / 2) (by dsimp only; omega) (by omega), show (k + 1) % 2 = 0 by omega]; rfl
  · rintro s k ⟨rfl, h⟩
    refine ⟨(k / 2, k % 2 == 1), ?_, rfl, by omega⟩
    rw [sePrev]
    rcases Nat.mod_two_eq_zero_or_one k with hk | hk
    · rw [if_pos (by simp; omega), show (k + 1) / 2 = k / 2 by omega, hk]; rfl
    · rw [if_neg (by simp; omega), padd_of (q := k / 2) (by dsimp only; omega) (by omega), hk]; rfl
  · rintro s k t l ⟨rfl, -⟩ ⟨rfl, -⟩
    simp only [seEq, Bool.and_eq_true, beq_iff_eq]
    rcases Nat.mod_two_eq_zero_or_one k with h | h <;> rcases Nat.mod_two_eq_zero_or_one l with h' | h' <;> simp [h, h'] <;> omega
  · rintro s k t l ⟨rfl, -⟩ ⟨rfl, -⟩
    simp only [seLt, Bool.or_eq_true, Bool.and_eq_true, beq_iff_eq, decide_eq_true_iff]
    rcases Nat.mod_two_eq_zero_or_one k with h | h <;> rcases Nat.mod_two_eq_zero_or_one l with h' | h' <;> simp [h, h'] <;> omega

example : seDeref (fun x : Int => x) 1 [5, 6] (0, true) = some 1 ∧ seNext [5, 6] (0, true) = some (1, false) := by decide

/-- `s + n` and `s - n`: *partial*: `n ≥ 0` for `+`; an even number of elements from the current one on for `-` -/
theorem C81_size_enum_add_partial (xs : List α) (s : Nat × Bool) (k j : Nat) (hs : EnumAt xs s k) (hj : j ≤ 2 * xs.length) :
    (k ≤ j → ∃ s', seAdd xs s ((j : Int) - k) = some s' ∧ EnumAt xs s' j) ∧
    (j % 2 = 0 → ∃ s', seSub xs s ((k : Int) - j) = some s' ∧ EnumAt xs s' j) := by
  obtain ⟨rfl, hk⟩ := hs
  have eb : b2i (k % 2 == 1) = (k % 2 : Nat) := by
    rcases Nat.mod_two_eq_zero_or_one k with h' | h' <;> simp [h', b2i]
  constructor
  · intro h
    refine ⟨(j / 2, j % 2 == 1), ?_, rfl, hj⟩
    simp only [seAdd, eb]
    rw [Int.tdiv_eq_ediv_of_nonneg (by omega), Int.tmod_eq_emod_of_nonneg (by omega), padd_of (q := j / 2) (by omega) (by omega), Option.map_some]
    congr 2
    rcases Nat.mod_two_eq_zero_or_one j with h' | h'
    · rw [show ((j : Int) - k + (k % 2 : Nat)) % 2 = 0 by omega, h']; rfl
    · rw [show ((j : Int) - k + (k % 2 : Nat)) % 2 = 1 by omega, h']; rfl
  · intro h
    refine ⟨(j / 2, j % 2 == 1), ?_, rfl, hj⟩
    simp only [seSub, eb]
    rw [show (k : Int) - j - (k % 2 : Nat) = 2 * ((k / 2 : Nat) - (j / 2 : Nat)) by omega, Int.mul_tdiv_cancel_left _ (by omega), Int.mul_tmod_right,
      padd_of (q := j / 2) (by omega) (by omega), Option.map_some, h]
    rfl

/-- `s - 1` at the beginning of an element goes to the separator behind it, not before it -/
theorem C81_size_enum_sub_refuted : seSub [(), ()] (1, false) 1 = some (1, true) ∧ EnumAt [(), ()] (1, false) 2 ∧ EnumAt [(), ()] (1, true) 3 := by
  refine ⟨by decide, ⟨by decide, by decide⟩, ⟨by decide, by decide⟩⟩

/-- `s[n]` never is the separator: `begin[1]` is the size of the first element -/
theorem C81_size_enum_index_refuted : seIndex (fun x : Int => x) [5] (0, false) 1 = some 5 ∧ sizesSep (fun x : Int => x) 1 [5] = [5, 1] := by
  decide

/-- the difference counts elements, not positions: `end - begin` is the number of elements instead of twice that number;
and the sign of the separators is wrong -/
theorem C81_size_enum_diff_refuted (n : Nat) : seDiff (n, false) (0, false) = some (n : Int) ∧ seDiff (n, true) (n, false) = some (-1) := by
  simp [seDiff]

/-! ### insert_range_iterator -/

/-- `xs` up to `pos`, then `ys`, then the rest of `xs` -/
def InsAt (xs ys : List α) (pos : Nat) (s : Nat × Nat) (k : Nat) : Prop :=
  s = (if k < pos then k else if k < pos + ys.length then pos else k - ys.length, min (k - pos) ys.length) ∧ k ≤ xs.length + ys.length

/-- *Partial*: all operations that can be instantiated but `operator<`. -/
theorem C81_insert_range_partial (xs ys : List α) (pos : Nat) (hp : pos ≤ xs.length) (hx : xs.length + ys.length < 2 ^ 63) :
    InsAt xs ys pos (0, 0) 0 ∧ InsAt xs ys pos (xs.length, ys.length) (xs.take pos ++ ys ++ xs.drop pos).length ∧
    IterDeref (irDeref xs ys pos) (xs.take pos ++ ys ++ xs.drop pos) (InsAt xs ys pos) ∧
    IterNext (irNext xs ys pos) (xs.take pos ++ ys ++ xs.drop pos) (InsAt xs ys pos) ∧ IterPrev (irPrev xs ys pos) (InsAt xs ys pos) ∧
    IterDiff irDiff (InsAt xs ys pos) ∧ IterEq irEq (InsAt xs ys pos) := by
  have hl : (xs.take pos ++ ys ++ xs.drop pos).length = xs.length + ys.length := by simp; omega
  refine ⟨⟨?_, by omega⟩, ⟨?_, by omega⟩, ?_, ?_, ?_, ?_, ?_⟩
  · congr 1
    · split
      · rfl
      · split <;> omega
    · omega
  · rw [hl]
    congr 1
    · split
      · omega
      · split <;> omega
    · omega
  · rintro s k ⟨rfl, -⟩ h
    rw [hl] at h
    rw [irDeref, irInBase]
    dsimp only
    by_cases h1 : k < pos
    · rw [if_pos (by simp [h1]; omega), if_pos h1, rd_eq (by omega), List.getElem_append_left (by simp; omega), List.getElem_append_left (by simp; omega), List.getElem_take]
    · by_cases h2 : k < pos + ys.length
      · rw [if_neg (by simp [h1, h2]; omega), rd_eq (by omega), List.getElem_append_left (by simp; omega), List.getElem_append_right (by simp; omega)]
        congr 2
        simp
        omega
      · rw [if_pos (by simp [h1, h2]; omega), if_neg h1, if_neg h2, rd_eq (by omega), List.getElem_append_right (by simp; omega), List.getElem_drop]
        congr 2
        simp
        omega
  · rintro s k ⟨rfl, -⟩ h
    rw [hl] at h
    refine ⟨_, ?_, rfl, by omega⟩
    rw [irNext, irInBase]
    dsimp only
    by_cases h1 : k < pos
    · rw [if_pos (by simp [h1]; omega), if_pos h1, padd_of (q := k + 1) (by omega) (by omega), Option.map_some]
      congr 2
      · split
        · rfl
        · split <;> omega
      · omega
    · by_cases h2 : k < pos + ys.length
      · rw [if_neg (by simp [h1, h2]; omega), if_neg h1, if_pos h2, padd_of (q := k - pos + 1) (by omega) (by omega), Option.map_some]
        congr 2
        · rw [if_neg (by omega)]
          split <;> omega
        · omega
      · rw [if_pos (by simp [h1, h2]; omega), if_neg h1, if_neg h2, padd_of (q := k - ys.length + 1) (by omega) (by omega), Option.map_some]
        congr 2
        · rw [if_neg (by omega), if_neg (by omega)]; omega
        · omega
  · rintro s k ⟨rfl, h⟩
    refine ⟨_, ?_, rfl, by omega⟩
    rw [irPrev]
    dsimp only
    by_cases h1 : k < pos
    · by_cases h3 : k + 1 < pos
      · rw [if_pos (by simp [h3]; omega), if_pos h3, padd_of (q := k) (by omega) (by omega), Option.map_some, if_pos h1]
        congr 2
        omega
      · rw [if_pos (Or.inr (by omega)), if_neg h3]
        have : (if k + 1 < pos + ys.length then pos else k + 1 - ys.length) = k + 1 := by split <;> omega
        rw [this, padd_of (q := k) (by omega) (by omega), Option.map_some, if_pos h1]
        congr 2
        omega
    · rw [if_neg (show ¬k < pos from h1), if_neg (show ¬k + 1 < pos by omega)]
      by_cases h2 : k < pos + ys.length
      · rw [if_pos h2]
        have : (if k + 1 < pos + ys.length then pos else k + 1 - ys.length) = pos := by split <;> omega
        rw [this, if_neg (by rintro (h | h); exacts [h rfl, by omega]), padd_of (q := k - pos) (by omega) (by omega), Option.map_some]
        congr 2
        omega
      · rw [if_neg h2, if_neg (show ¬k + 1 < pos + ys.length by omega), if_pos (Or.inl (by omega)), padd_of (q := k - ys.length) (by omega) (by omega), Option.map_some]
        congr 2
        omega
  · rintro s k t l ⟨rfl, hk⟩ ⟨rfl, hlt⟩
    rw [irDiff]
    have g : ∀ k, k ≤ xs.length + ys.length → (if k < pos then k else if k < pos + ys.length then pos else k - ys.length) + min (k - pos) ys.length = k := by
      intro k _
      split
      · omega
      · split <;> omega
    have g2 : ∀ k, k ≤ xs.length + ys.length → (if k < pos then k else if k < pos + ys.length then pos else k - ys.length) ≤ xs.length := by
      intro k _
      split
      · omega
      · split <;> omega
    have := g k hk
    have := g l hlt
    have := g2 k hk
    have := g2 l hlt
    dsimp only
    rw [limitedPlus_eq (by omega) (by omega) (by omega) (by omega) (by omega) (by omega)]
    congr 1
    omega
  · rintro s k t l ⟨rfl, hk⟩ ⟨rfl, hlt⟩
    simp only [irEq, Bool.and_eq_true, beq_iff_eq]
    constructor
    · rintro ⟨h1, h2⟩
      split at h1 <;> split at h1 <;> (try split at h1) <;> (try split at h1) <;> omega
    · rintro rfl
      exact ⟨rfl, rfl⟩

example : irDeref [1, 2, 3] [8, 9] 1 (1, 1) = some 9 ∧ irNext [1, 2, 3] [8, 9] 1 (1, 1) = some (1, 2) ∧ irDeref [1, 2, 3] [8, 9] 1 (1, 2) = some 2 ∧
    irPrev [1, 2, 3] [8, 9] 1 (1, 0) = some (0, 0) := by decide

/-- an element behind the inserted range is less than an inserted one: `[2]` inserted before `1` -/
theorem C81_insert_range_lt_refuted : irLt 0 [2] (1, 1) (0, 0) = true ∧ InsAt [1] [2] 0 (1, 1) 2 ∧ InsAt [1] [2] 0 (0, 0) 0 := by
  refine ⟨by decide, ⟨by decide, by decide⟩, ⟨by decide, by decide⟩⟩

/-! ### step_iterator -/

/-- the states reached from `begin` by iteration: the last element is at `(len - 1) / w * w`; the end stays there with the flag -/
def StepAt (xs : List α) (w : Nat) (s : Step) (k : Nat) : Prop :=
  s = ⟨min k ((xs.length - 1) / w) * w, w, (xs.length - 1) / w * w, decide ((xs.length - 1) / w < k)⟩ ∧ k ≤ (xs.length - 1) / w + 1

private theorem step_len (xs : List α) (hx : xs ≠ []) (w : Nat) (hw : 0 < w) :
    (everyNth w xs).length = (xs.length - 1) / w + 1 ∧ (xs.length - 1) / w * w < xs.length := by
  have := List.length_pos_of_ne_nil hx
  constructor
  · rw [(everyNth_length w hw xs).1, show xs.length + w - 1 = xs.length - 1 + w by omega, Nat.add_div_right _ hw]
  · have := Nat.div_mul_le_self (xs.length - 1) w
    omega

/-- *Partial*: `operator+` and `-`, `--`, `prev` and `end` are missing; `[]` not from the end. -/
theorem C81_step_partial (xs : List α) (hx : xs ≠ []) (w : Nat) (hw : 0 < w) :
    (∃ s, stMake xs 0 w xs.length = some s ∧ StepAt xs w s 0) ∧ IterDeref (stDeref xs) (everyNth w xs) (StepAt xs w) ∧
    IterNext (stIncr xs) (everyNth w xs) (StepAt xs w) ∧ IterNext (stAdd xs · 1) (everyNth w xs) (StepAt xs w) ∧
    IterDiff stDiff (StepAt xs w) ∧ IterEq stEq (StepAt xs w) ∧ IterLt stLt (StepAt xs w) ∧
    IterIndex (stIndex xs) (everyNth w xs) (fun s k => StepAt xs w s k ∧ k < (everyNth w xs).length) := by
  obtain ⟨hl, hm⟩ := step_len xs hx w hw
  have hpos := List.length_pos_of_ne_nil hx
  have hget := (everyNth_length w hw xs).2
  generalize hM : (xs.length - 1) / w = m at hl hm
  have hle : ∀ k ≤ m, k * w ≤ m * w := fun k hk => Nat.mul_le_mul_right w hk
  have hd : ∀ k : Nat, ((m * w : Nat) : Int) - (k * w : Nat) = (m - k : Int) * w := by intro k; push_cast; rw [Int.sub_mul]
  refine ⟨⟨⟨0, w, m * w, false⟩, ?_, ?_⟩, ?_, ?_, ?_, ?_, ?_, ?_, ?_⟩
  · rw [stMake, if_neg (by omega), padd_of (q := m * w) _ (by omega), Option.bind_eq_bind, Option.bind_some, show ((0 : Nat) == xs.length) = false by simp; omega]
    rw [show ((xs.length : Int) - (0 : Nat) - 1) = (xs.length - 1 : Nat) by omega, Int.tdiv_eq_ediv_of_nonneg (by omega), ← Int.natCast_ediv, hM]
    push_cast
    omega
  · rw [StepAt, hM]
    exact ⟨by simp, by omega⟩
  · rintro s k ⟨rfl, -⟩ h
    rw [hM]
    obtain ⟨h', e⟩ := hget k h
    rw [stDeref, e]
    simp only [show min k m = k by omega]
    rw [rd_eq h']
  · rintro s k ⟨rfl, -⟩ h
    simp only [StepAt, hM]
    refine ⟨_, ?_, rfl, by omega⟩
    rw [stIncr]
    dsimp only
    by_cases hk : k = m
    · subst hk
      rw [if_pos (by rw [Nat.min_self]), stDist, if_pos (by omega)]
      dsimp only
      rw [Nat.min_self, padd_of (q := k * w) (by have : (0 : Int) ≤ w := by omega
                                                 omega) (by omega)]
      simp [hM]
    · have h1 : (k + 1) * w ≤ m * w := hle _ (by omega)
      rw [Nat.add_mul, Nat.one_mul] at h1
      rw [show min k m = k by omega, if_neg (by
        intro e
        have := Nat.eq_of_mul_eq_mul_right hw e
        omega), stDist, if_pos (by omega)]
      dsimp only
      rw [padd_of (q := (k + 1) * w) (by rw [Nat.add_mul]; omega) (by rw [Nat.add_mul]; omega), show min (k + 1) m = k + 1 by omega, Option.map_some]
      congr 2
      simp only [decide_eq_decide]
      omega
  · rintro s k ⟨rfl, -⟩ h
    simp only [StepAt, hM]
    refine ⟨_, ?_, rfl, by omega⟩
    simp only [stAdd, stDist]
    rw [if_pos (by omega)]
    by_cases hk : k = m
    · subst hk
      rw [Nat.min_self, Int.sub_self, show min 0 (1 * (w : Int)) = 0 by omega, padd_of (q := k * w) (by omega) (by omega)]
      simp [hM]
    · have h1 : (k + 1) * w ≤ m * w := hle _ (by omega)
      rw [Nat.add_mul, Nat.one_mul] at h1
      rw [show min k m = k by omega, show min (((m * w : Nat) : Int) - (k * w : Nat)) (1 * (w : Int)) = w by omega,
        padd_of (q := (k + 1) * w) (by rw [Nat.add_mul]; omega) (by rw [Nat.add_mul]; omega), show min (k + 1) m = k + 1 by omega, Option.map_some]
      congr 2
      rw [Bool.eq_iff_iff]
      simp
      omega
  · rintro s k t l ⟨rfl, hk⟩ ⟨rfl, hl⟩
    rw [hM] at hk hl ⊢
    simp only [stDiff]
    rw [show ((min k m * w : Nat) : Int) - (min l m * w : Nat) = ((min k m : Nat) - (min l m : Nat) : Int) * w by push_cast; rw [Int.sub_mul],
      Int.mul_tdiv_cancel _ (by omega)]
    congr 1
    by_cases h1 : m < k <;> by_cases h2 : m < l <;> simp [h1, h2] <;> omega
  · rintro s k t l ⟨rfl, hk⟩ ⟨rfl, hl⟩
    rw [hM] at hk hl ⊢
    simp only [stEq, Bool.and_eq_true, beq_iff_eq, decide_eq_decide]
    rw [Nat.mul_left_inj (by omega)]
    omega
  · rintro s k t l ⟨rfl, hk⟩ ⟨rfl, hl⟩
    rw [hM] at hk hl ⊢
    simp only [stLt, Bool.or_eq_true, Bool.and_eq_true, beq_iff_eq, decide_eq_true_iff, Bool.not_eq_true', decide_eq_false_iff_not]
    rw [Nat.mul_left_inj (by omega), Nat.mul_lt_mul_right hw]
    omega
  · rintro s k j ⟨⟨rfl, -⟩, hk⟩ h
    rw [hM]
    obtain ⟨h', e⟩ := hget j h
    rw [stIndex, pindex, e]
    dsimp only
    rw [show min k m = k by omega, padd_of (q := j * w) (by push_cast; rw [Int.sub_mul]; omega) (by omega), Option.bind_eq_bind, Option.bind_some, rd_eq h']

example : stMake [1, 2, 3, 4, 5, 6] 0 2 6 = some ⟨0, 2, 4, false⟩ ∧ stIncr [1, 2, 3, 4, 5, 6] ⟨2, 2, 4, false⟩ = some ⟨4, 2, 4, false⟩ ∧
    stIncr [1, 2, 3, 4, 5, 6] ⟨4, 2, 4, false⟩ = some ⟨4, 2, 4, true⟩ ∧ stDiff ⟨4, 2, 4, true⟩ ⟨0, 2, 4, false⟩ = some 3 := by decide

/-- `s + n` and `prev`. *Partial*: forward by at least one, not to the end; back by not more than the distance to the last element. -/
theorem C81_step_add_partial (xs : List α) (hx : xs ≠ []) (w : Nat) (hw : 0 < w) (s : Step) (k j : Nat) (hs : StepAt xs w s k)
    (hk : k < (everyNth w xs).length) (hj : j < (everyNth w xs).length) (h : k < j ∨ (j < k ∧ k - j ≤ (everyNth w xs).length - 1 - k)) :
    ∃ s', stAdd xs s ((j : Int) - k) = some s' ∧ StepAt xs w s' j := by
  obtain ⟨hl, hm⟩ := step_len xs hx w hw
  obtain ⟨rfl, -⟩ := hs
  rw [hl] at hk hj h
  simp only [StepAt]
  generalize hM : (xs.length - 1) / w = m at *
  have hle : ∀ k ≤ m, k * w ≤ m * w := fun k hk => Nat.mul_le_mul_right w hk
  refine ⟨⟨min j m * w, w, m * w, decide (m < j)⟩, ?_, rfl, by omega⟩
  have e : stDist ⟨min k m * w, w, m * w, decide (m < k)⟩ ((j : Int) - k) = (j : Int) * w - k * w := by
    simp only [stDist, show min k m = k by omega]
    rw [Int.sub_mul]
    have hj' := hle j (by omega)
    have hk' := hle k (by omega)
    push_cast at hj' hk' ⊢
    rcases h with h | h
    · rw [if_pos (by omega)]
      omega
    · rw [if_neg (by omega), if_neg (by simp; omega)]
      have : (k - j) * w ≤ (m - k) * w := Nat.mul_le_mul_right w (by omega)
      rw [Nat.sub_mul, Nat.sub_mul] at this
      omega
  have hj' := hle j (by omega)
  rw [stAdd, e]
  dsimp only
  rw [show min k m = k by omega, padd_of (q := j * w) (by push_cast; omega) (by omega), Option.map_some, show min j m = j by omega]
  congr 2
  rw [Bool.eq_iff_iff]
  simp only [beq_iff_eq, decide_eq_true_iff, show ¬m < j by omega, iff_false]
  intro e0
  have : (j : Int) * w = k * w := by omega
  have : j * w = k * w := by exact_mod_cast this
  have := Nat.eq_of_mul_eq_mul_right hw this
  omega

/-- `s + 0` is the end of the range (unless `s` is the last element: then `s + 0` is the end, too) -/
theorem C81_step_add_zero_refuted (xs : List α) (s : Step) (hw : 0 ≤ s.wid) (hc : s.current ≤ s.back) (hb : s.back ≤ xs.length) :
    stAdd xs s 0 = some { s with isLast := true } := by
  have e : stDist s 0 = 0 := by
    rw [stDist, if_pos (by omega)]
    omega
  rw [stAdd, e, padd_of (q := s.current) (by omega) (by omega)]
  rfl

/-- the end constructed from `last` is never equal to a state reached by iteration: a loop to it does not stop -/
theorem C81_step_end_refuted (xs : List α) (hx : xs ≠ []) (w : Nat) (hw : 0 < w) :
    ∃ e, stMake xs xs.length w xs.length = some e ∧ ∀ s k, StepAt xs w s k → stEq s e = false := by
  obtain ⟨hl, hm⟩ := step_len xs hx w hw
  have hpos := List.length_pos_of_ne_nil hx
  have : ∃ b, padd xs.length xs.length ((((xs.length : Int) - xs.length) - 1).tdiv w * w) = some b := by
    rw [Int.sub_self, show (0 : Int) - 1 = -1 by omega, Int.neg_tdiv]
    by_cases h1 : w = 1
    · subst h1
      exact ⟨xs.length - 1, padd_of (by simp; omega) (by omega)⟩
    · rw [Int.tdiv_eq_ediv_of_nonneg (by omega), Int.ediv_eq_zero_of_lt (by omega) (by omega)]
      exact ⟨xs.length, padd_of (by simp) (by omega)⟩
  obtain ⟨b, hb⟩ := this
  refine ⟨⟨xs.length, w, b, true⟩, ?_, ?_⟩
  · rw [stMake, if_neg (by omega), hb, Option.bind_eq_bind, Option.bind_some]
    simp
  · rintro s k ⟨rfl, -⟩
    have : min k ((xs.length - 1) / w) * w ≤ (xs.length - 1) / w * w := Nat.mul_le_mul_right w (by omega)
    simp only [stEq, Bool.and_eq_false_iff, beq_eq_false_iff_ne]
    left
    omega

/-- `prev` and `--` from the last element and from the end reached by iteration go to the end -/
theorem C81_step_prev_refuted (xs : List α) (hx : xs ≠ []) (w : Nat) (hw : 0 < w) (s : Step) (k : Nat) (hs : StepAt xs w s k)
    (hk : (everyNth w xs).length ≤ k + 1) : ∃ s', stAdd xs s (-1) = some s' ∧ StepAt xs w s' (everyNth w xs).length := by
  obtain ⟨hl, hm⟩ := step_len xs hx w hw
  obtain ⟨rfl, hk'⟩ := hs
  rw [hl] at hk ⊢
  simp only [StepAt]
  generalize hM : (xs.length - 1) / w = m at *
  refine ⟨⟨min (m + 1) m * w, w, m * w, decide (m < m + 1)⟩, ?_, rfl, by omega⟩
  have e : stDist ⟨min k m * w, w, m * w, decide (m < k)⟩ (-1) = 0 := by
    simp only [stDist, show min k m = m by omega]
    rw [if_neg (by omega)]
    split
    · rfl
    · omega
  rw [stAdd, e]
  dsimp only
  rw [show min k m = m by omega, show min (m + 1) m = m by omega, padd_of (q := m * w) (by omega) (by omega)]
  simp

/-- `operator--` at the end stays there -/
theorem C81_step_decr_refuted (xs : List α) (hx : xs ≠ []) (w : Nat) (hw : 0 < w) (s : Step) (hs : StepAt xs w s (everyNth w xs).length) :
    stDecr xs s = some s := by
  obtain ⟨hl, hm⟩ := step_len xs hx w hw
  obtain ⟨rfl, hk'⟩ := hs
  rw [hl]
  generalize hM : (xs.length - 1) / w = m at *
  rw [show min (m + 1) m = m by omega, decide_eq_true (by omega : m < m + 1), stDecr, stDist, if_neg (by omega), if_pos rfl]
  dsimp only
  rw [padd_of (q := m * w) (by omega) (by omega)]
  simp

/-- the end is not reached by `+` from before the last element: `begin + size` is the last element -/
example : stAdd [1, 2, 3] ⟨0, 1, 2, false⟩ 3 = some ⟨2, 1, 2, false⟩ := by decide
/-- going back is limited by the distance to the last element: from 2, of 0 … 3, three steps back lead to 1 -/
example : stSub [0, 1, 2, 3] ⟨2, 1, 3, false⟩ 2 = some ⟨1, 1, 3, false⟩ := by decide
/-- an empty range with width 1: the last element would be before the range -/
theorem C81_step_empty_refuted : stMake ([] : List α) 0 1 0 = none := by simp [stMake, padd]

/-! ### bytes_iterator -/

/-- byte `k % sz` of the element `k / sz` -/
def BytesAt (xs : List α) (sz : Nat) (s : Nat × Int) (k : Nat) : Prop := s = (k / sz, ((k % sz : Nat) : Int)) ∧ k ≤ sz * xs.length

/-- *Partial*: `prev` and negative distances are missing. -/
theorem C81_bytes_partial (byte : α → Int → Option β) (bytes : α → List β) (sz : Nat) (hs : 0 < sz) (hb : ∀ x, (bytes x).length = sz)
    (hbyte : ∀ x (i : Nat), byte x i = (bytes x)[i]?) (xs : List α) (hx : sz * xs.length < 2 ^ 62) (hz : sz < 2 ^ 62) :
    BytesAt xs sz (0, 0) 0 ∧ BytesAt xs sz (xs.length, 0) (xs.flatMap bytes).length ∧
    IterDeref (byDeref byte xs) (xs.flatMap bytes) (BytesAt xs sz) ∧ IterNext (byNext sz xs) (xs.flatMap bytes) (BytesAt xs sz) ∧
    (∀ s k j, BytesAt xs sz s k → k ≤ j → j ≤ (xs.flatMap bytes).length → ∃ s', byAdd sz xs s ((j : Int) - k) = some s' ∧ BytesAt xs sz s' j) ∧
    (∀ s k j, BytesAt xs sz s k → k ≤ j → ∀ h : j < (xs.flatMap bytes).length, byIndex byte sz xs s ((j : Int) - k) = some (xs.flatMap bytes)[j]) ∧
    IterDiff (byDiff sz) (BytesAt xs sz) ∧ IterEq byEq (BytesAt xs sz) ∧ IterLt byLt (BytesAt xs sz) := by
  have hl := flatMap_len bytes sz hb xs
  have hdm := fun k => Nat.div_add_mod k sz
  have hml := fun k => Nat.mod_lt k hs
  have hdiv : ∀ k ≤ sz * xs.length, k / sz ≤ xs.length := fun k hk => Nat.div_le_of_le_mul hk
  have hder : IterDeref (byDeref byte xs) (xs.flatMap bytes) (BytesAt xs sz) := by
    rintro s k ⟨rfl, -⟩ h
    rw [← List.getElem?_eq_getElem, flatMap_get bytes sz hb xs k (by omega), byDeref]
    simp only [rd, hbyte]
    rfl
  have hadd : ∀ s k j, BytesAt xs sz s k → k ≤ j → j ≤ (xs.flatMap bytes).length → ∃ s', byAdd sz xs s ((j : Int) - k) = some s' ∧ BytesAt xs sz s' j := by
    rintro s k j ⟨rfl, hk⟩ hkj hj
    rw [hl] at hj
    refine ⟨(j / sz, ((j % sz : Nat) : Int)), ?_, rfl, hj⟩
    have h1 := hdm k
    have h2 := hml k
    have e : ((k % sz : Nat) : Int) + ((j : Int) - k) = (j - sz * (k / sz) : Nat) := by omega
    simp only [byAdd]
    rw [e, byAddIt, if_pos (by omega), byAddIx, if_pos (by omega), toU_of (by omega) (by omega), ← Int.natCast_ediv, ← Int.natCast_emod]
    have hle : sz * (k / sz) ≤ j := by omega
    have e2 : (j - sz * (k / sz)) / sz = j / sz - k / sz := Nat.sub_mul_div_of_le _ _ _ hle
    have e3 : (j - sz * (k / sz)) % sz = j % sz := Nat.sub_mul_mod hle
    have h5 : k / sz ≤ j / sz := Nat.div_le_div_right hkj
    have h6 : j / sz ≤ j := Nat.div_le_self j sz
    have h8 : (0 : Int) ≤ (k / sz : Nat) := Int.natCast_nonneg _
    have h7 := hml j
    rw [e2, e3, toS_of (by omega) (by omega), toS_of (by omega) (by omega), padd_of (q := j / sz) (by omega) (hdiv j hj)]
    rfl
  refine ⟨⟨by simp, by omega⟩, ⟨?_, by omega⟩, hder, ?_, hadd, ?_, ?_, ?_, ?_⟩
  · rw [hl, Nat.mul_div_cancel_left _ hs, Nat.mul_mod_right]; rfl
  · rintro s k ⟨rfl, -⟩ h
    rw [hl] at h
    refine ⟨((k + 1) / sz, (((k + 1) % sz : Nat) : Int)), ?_, rfl, by omega⟩
    have h2 := hml k
    have h1 := hdm k
    simp only [byNext]
    rw [toU_of (by omega) (by omega), show ((k % sz : Nat) : Int) + 1 = (k % sz + 1 : Nat) by omega, ← Int.natCast_ediv, ← Int.natCast_emod,
      Nat.mod_add_mod, toS_of (by omega) (by have := hml (k + 1); omega)]
    by_cases hc : k % sz + 1 = sz
    · have e : (k + 1) / sz = k / sz + 1 := by
        rw [show k + 1 = sz * (k / sz + 1) by rw [Nat.mul_add]; omega, Nat.mul_div_cancel_left _ hs]
      rw [hc, Nat.div_self hs, if_neg (by omega), padd_of (q := k / sz + 1) (by omega) (by rw [← e]; exact hdiv _ h), e]
      rfl
    · have e : (k + 1) / sz = k / sz := by
        rw [show k + 1 = (k % sz + 1) + sz * (k / sz) by omega, Nat.add_mul_div_left _ _ hs, Nat.div_eq_of_lt (by omega), Nat.zero_add]
      rw [Nat.div_eq_of_lt (by omega), if_pos (by rfl), e]
      rfl
  · intro s k j hs' hkj h
    obtain ⟨t, e, ht⟩ := hadd s k j hs' hkj (by omega)
    rw [byIndex, e, Option.bind_eq_bind, Option.bind_some]
    exact hder t j ht h
  · rintro s k t l ⟨rfl, hk⟩ ⟨rfl, hl⟩
    simp only [byDiff]
    have h1 := hdm k
    have h2 := hdm l
    congr 1
    have : toU (toU (toU (((k / sz : Nat) : Int) - (l / sz : Nat)) * sz) + toU (((k % sz : Nat) : Int) - (l % sz : Nat))) = toU ((k : Int) - l) := by
      simp only [toU]
      have e : ((k : Int) - l) = (((k / sz : Nat) : Int) - (l / sz : Nat)) * sz + (((k % sz : Nat) : Int) - (l % sz : Nat)) := by
        rw [Int.sub_mul, Int.mul_comm, Int.mul_comm ((l / sz : Nat) : Int)]
        have h1' : (sz : Int) * (k / sz : Nat) + (k % sz : Nat) = k := by exact_mod_cast h1
        have h2' : (sz : Int) * (l / sz : Nat) + (l % sz : Nat) = l := by exact_mod_cast h2
        omega
      rw [e, ← Int.add_emod, Int.add_emod, Int.mul_emod (_ % _), Int.emod_emod, ← Int.mul_emod, ← Int.add_emod]
    rw [this]
    simp only [toU, toS, CInt.conv, int64_min, show (2 : Int) ^ CInt.int64.w = 2 ^ 64 from rfl]
    omega
  · rintro s k t l ⟨rfl, hk⟩ ⟨rfl, hl⟩
    simp only [byEq, Bool.and_eq_true, beq_iff_eq]
    constructor
    · rintro ⟨h1, h2⟩
      rw [← hdm k, ← hdm l, h1, Int.ofNat_inj.1 h2]
    · rintro rfl
      exact ⟨rfl, rfl⟩
  · rintro s k t l ⟨rfl, hk⟩ ⟨rfl, hl⟩
    simp only [byLt, Bool.or_eq_true, Bool.and_eq_true, beq_iff_eq, decide_eq_true_iff]
    have h1 := hdm k
    have h2 := hdm l
    have h3 := hml k
    have h4 := hml l
    rcases Nat.lt_trichotomy (k / sz) (l / sz) with h | h | h
    · have : sz * (k / sz + 1) ≤ sz * (l / sz) := Nat.mul_le_mul_left sz h
      rw [Nat.mul_add] at this
      exact ⟨fun _ => by omega, fun _ => Or.inl h⟩
    · rw [h] at h1 ⊢
      omega
    · have : sz * (l / sz + 1) ≤ sz * (k / sz) := Nat.mul_le_mul_left sz h
      rw [Nat.mul_add] at this
      exact ⟨fun h' => by omega, fun _ => by omega⟩

example : byAdd 4 [1, 2, 3] (0, 3) 6 = some (2, 1) ∧ byNext 4 [1, 2, 3] (0, 3) = some (1, 0) ∧ byDiff 4 (0, 3) (2, 1) = some (-6) := by decide
example : byPrev 4 [1, 2, 3] (1, 2) = some (0, 5) := by decide

/-- `prev` computes in `size_t`: the byte number is never in range (`≥ sz`), so that the state is no position at all -/
theorem C81_bytes_prev_refuted (xs : List α) (sz : Nat) (hs : 0 < sz) (hz : sz < 2 ^ 62) (s : Nat × Int) (hi : 0 ≤ s.2) (hi' : s.2 < sz) (s' : Nat × Int)
    (h : byPrev sz xs s = some s') : (sz : Int) ≤ s'.2 := by
  have h1 := Int.emod_nonneg (toU (s.2 - 1)) (show (sz : Int) ≠ 0 by omega)
  have h2 := Int.emod_lt_of_pos (toU (s.2 - 1)) (show (0 : Int) < sz by omega)
  rw [byPrev, Option.map_eq_some_iff] at h
  obtain ⟨p, -, rfl⟩ := h
  dsimp only
  rw [toU_of (x := toU (s.2 - 1) % sz + sz) (by omega) (by omega), toS_of (by omega) (by omega)]
  omega

/-- `it - 1` from the second element of a sequence of two-byte elements is outside every block of less than `2 ^ 62` elements -/
theorem C81_bytes_sub_refuted (xs : List α) (hx : xs.length < 2 ^ 62) : bySub 2 xs (1, 0) 1 = none := by
  rw [bySub, byAdd, byAddIt, if_neg (by omega), padd_none]
  · rfl
  · right
    have : toS (toU ((1, (0 : Int)).2 + -1 + 1 - (2 : Nat)) / (2 : Nat)) = 2 ^ 63 - 1 := by decide
    rw [this]
    dsimp only
    omega

end Sprout
