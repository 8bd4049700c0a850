import Verif.Proofs.Search

/-!
# C16: subsequence searches return the right occurrence

Specification vocabulary (`MatchAt`, `FirstIdx`, `LastIdx`, `FindEndIdx`, `NRun`, `adjIdx`) is in
`Verif/Spec/Find.lean`. Ranges are segments of larger blocks as in C15.

The last clause of the property ("`search_n` with count 0 returns first") is FALSE for the code:
`sprout/algorithm/search_n.hpp` lines 132 and 140 return `last`. See `C16_search_n_zero_false`.
-/

namespace Sprout
variable {α β : Type}

theorem C16_search (p : α → β → Bool) (pre1 xs post1 : List α) (pre2 ys post2 : List β) :
    (∃ i, searchRa (pre1 ++ xs ++ post1) (pre2 ++ ys ++ post2) p pre1.length (pre1.length + xs.length)
      pre2.length (pre2.length + ys.length) = some (pre1.length + i) ∧
      Spec.FirstIdx (Spec.MatchAt p xs ys) xs.length i) ∧
    (∃ i, searchRaFwd (pre1 ++ xs ++ post1) (pre2 ++ ys ++ post2) p pre1.length (pre1.length + xs.length)
      pre2.length (pre2.length + ys.length) = some (pre1.length + i) ∧
      Spec.FirstIdx (Spec.MatchAt p xs ys) xs.length i) ∧
    (∃ i, searchFwd (pre1 ++ xs ++ post1) (pre2 ++ ys ++ post2) p pre1.length (pre1.length + xs.length)
      pre2.length (pre2.length + ys.length) = some (pre1.length + i) ∧
      Spec.FirstIdx (Spec.MatchAt p xs ys) xs.length i) :=
  ⟨searchRa_spec .., searchRaFwd_spec .., searchFwd_spec ..⟩

theorem C16_find_end (p : α → β → Bool) (pre1 xs post1 : List α) (pre2 ys post2 : List β) :
    (∃ i, findEndRa (pre1 ++ xs ++ post1) (pre2 ++ ys ++ post2) p pre1.length (pre1.length + xs.length)
      pre2.length (pre2.length + ys.length) = some (pre1.length + i) ∧ Spec.FindEndIdx p xs ys i) ∧
    (∃ i, findEndBi (pre1 ++ xs ++ post1) (pre2 ++ ys ++ post2) p pre1.length (pre1.length + xs.length)
      pre2.length (pre2.length + ys.length) = some (pre1.length + i) ∧ Spec.FindEndIdx p xs ys i) ∧
    (∃ i, findEndFwd (pre1 ++ xs ++ post1) (pre2 ++ ys ++ post2) p pre1.length (pre1.length + xs.length)
      pre2.length (pre2.length + ys.length) = some (pre1.length + i) ∧ Spec.FindEndIdx p xs ys i) :=
  ⟨findEndRa_spec .., findEndBi_spec .., findEndFwd_spec ..⟩

/-- The full statement for `search_n`: for every count, the first run of `count` hits, where an empty
run is found at the beginning. -/
def SearchNFull (search : List Nat → (Nat → Bool) → Nat → Nat → Nat → Option Nat) : Prop :=
  ∀ (q : Nat → Bool) (pre xs post : List Nat) (count : Nat),
    ∃ i, search (pre ++ xs ++ post) q pre.length (pre.length + xs.length) count = some (pre.length + i) ∧
      Spec.FirstIdx (Spec.NRun q xs count) xs.length i

/-- Missing compared to `SearchNFull`: `count = 0`, where the code returns `last`. -/
theorem C16_search_n_partial (q : α → Bool) (pre xs post : List α) (count : Nat) (hc : 1 ≤ count) :
    (∃ i, searchNRa (pre ++ xs ++ post) q pre.length (pre.length + xs.length) count = some (pre.length + i) ∧
      Spec.FirstIdx (Spec.NRun q xs count) xs.length i) ∧
    (∃ i, searchNFwd (pre ++ xs ++ post) q pre.length (pre.length + xs.length) count = some (pre.length + i) ∧
      Spec.FirstIdx (Spec.NRun q xs count) xs.length i) :=
  ⟨searchNRa_spec q pre xs post count hc, searchNFwd_spec q pre xs post count hc⟩

/-- `search_n` with count 0 always returns `last`. -/
theorem C16_search_n_zero (q : α → Bool) (m : List α) (first last : Nat) :
    searchNRa m q first last 0 = some last ∧ searchNFwd m q first last 0 = some last := by
  simp [searchNRa, searchNFwd]

/-- The full `search_n` statement fails, for both versions (witness: one element, count 0). -/
theorem C16_search_n_zero_false : ¬ SearchNFull searchNRa ∧ ¬ SearchNFull searchNFwd := by
  constructor
  · intro h
    obtain ⟨i, h1, h2, h3, h4⟩ := h (fun _ => true) [] [7] [] 0
    have : i = 1 := by simpa [searchNRa] using h1.symm
    subst this
    exact h3 0 (by omega) ⟨by simp, fun j x _ _ _ => by omega⟩
  · intro h
    obtain ⟨i, h1, h2, h3, h4⟩ := h (fun _ => true) [] [7] [] 0
    have : i = 1 := by simpa [searchNFwd] using h1.symm
    subst this
    exact h3 0 (by omega) ⟨by simp, fun j x _ _ _ => by omega⟩

theorem C16_adjacent_find (p : α → α → Bool) (pre xs post : List α) :
    adjacentFindRa (pre ++ xs ++ post) pre.length (pre.length + xs.length) p
      = some (pre.length + Spec.adjIdx p xs) ∧
    adjacentFindFwd (pre ++ xs ++ post) pre.length (pre.length + xs.length) p
      = some (pre.length + Spec.adjIdx p xs) :=
  ⟨adjacentFindRa_eq .., adjacentFindFwd_eq ..⟩

theorem C16_find_first_of (p : α → β → Bool) (pre1 xs post1 : List α) (pre2 ys post2 : List β) :
    findFirstOfRa (pre1 ++ xs ++ post1) (pre2 ++ ys ++ post2) p pre1.length (pre1.length + xs.length)
      pre2.length (pre2.length + ys.length) = some (pre1.length + xs.findIdx (fun x => ys.any (p x))) ∧
    findFirstOfIn (pre1 ++ xs ++ post1) (pre2 ++ ys ++ post2) p pre1.length (pre1.length + xs.length)
      pre2.length (pre2.length + ys.length) = some (pre1.length + xs.findIdx (fun x => ys.any (p x))) :=
  ⟨findFirstOfRa_eq .., findFirstOfIn_eq ..⟩

/-! Non-vacuity. -/
example : Spec.MatchAt (· == ·) [1, 2, 1, 2, 3] [1, 2] 2 :=
    (matchPre_iff _ _ _ _ (by decide)).mp (by decide)
example : Spec.NRun (· == 7) [1, 7, 7, 7, 2] 3 1 := ⟨by simp, fun j x h1 h2 hx => by
  rcases j with _ | _ | _ | _ | j <;> simp_all <;> omega⟩
example : adjacentFindRa [0, 1, 2, 2, 3] 1 5 (· == ·) = some 2 :=
  (C16_adjacent_find (· == ·) [0] [1, 2, 2, 3] []).1
/-- a self-overlapping pattern: `search` finds the first, `find_end` the last occurrence -/
example : searchRa [0, 1, 2, 1, 2, 1] [1, 2, 1] (· == ·) 0 6 0 3 = some 1 ∧
    findEndFwd [0, 1, 2, 1, 2, 1] [1, 2, 1] (· == ·) 0 6 0 3 = some 3 := by
  have m1 : Spec.MatchAt (· == ·) [0, 1, 2, 1, 2, 1] [1, 2, 1] 1 :=
    (matchPre_iff _ _ _ _ (by decide)).mp (by decide)
  have m3 : Spec.MatchAt (· == ·) [0, 1, 2, 1, 2, 1] [1, 2, 1] 3 :=
    (matchPre_iff _ _ _ _ (by decide)).mp (by decide)
  constructor
  · obtain ⟨i, h1, h2, h3, h4⟩ := (C16_search (· == ·) [] [0, 1, 2, 1, 2, 1] [] [] [1, 2, 1] []).1
    have hi : i ≤ 1 := by by_contra hc; exact h3 1 (by omega) m1
    have : i ≠ 0 := by
      rintro rfl
      have := (h4 (by simp)).2 0 0 1 (by simp) (by simp) (by simp)
      simp at this
    have : i = 1 := by omega
    subst this
    simpa using h1
  · obtain ⟨i, h1, h2⟩ := (C16_find_end (· == ·) [] [0, 1, 2, 1, 2, 1] [] [] [1, 2, 1] []).2.2
    simp only [Spec.FindEndIdx] at h2
    rw [if_neg (by simp)] at h2
    rcases h2 with ⟨h3, h4, h5⟩ | ⟨h3, h4⟩
    · have := h4.1
      have hi : ¬ i < 3 := fun h => h5 3 h (by simp) m3
      have : i = 3 := by simp at this; omega
      subst this
      simpa using h1
    · exact absurd m3 (h4 3 (by simp))

end Sprout
