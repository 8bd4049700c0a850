import Verif.Proofs.Shuffle

/-!
# C21: random_swap stays in range

False for the code: the distribution is `[0, last - first]`, closed, so both draws can be `last - first`
(random_swap.hpp 28), which is one past the end. (The code swaps two random elements, not `*first` with one.)
-/

namespace Sprout
variable {α σ : Type}

/-- The full property: within the contract of the distribution, the swap is defined and permutes the range. -/
def RandomSwapFull : Prop :=
  ∀ (gen : Gen (List Nat)), gen.InRange → ∀ (pre xs post : List Nat) (s : List Nat),
    ∃ zs s', randomSwap gen (pre ++ xs ++ post) pre.length (pre.length + xs.length) s = some (pre ++ zs ++ post, s') ∧ zs.Perm xs

theorem C21_random_swap_false : ¬ RandomSwapFull := by
  intro h
  obtain ⟨zs, s', h1, -⟩ := h replay replay_inRange [] [1, 2] [] [0, 2]
  simp [randomSwap, replay, swp, rd] at h1

/-- In a larger block the same draw corrupts the element behind the range. -/
theorem C21_random_swap_escapes : randomSwap replay [1, 2, 3] 0 2 [0, 2] = some ([3, 2, 1], []) := by
  simp [randomSwap, replay, swp, rd, wr]

/-- Missing compared to the full property: the draws are assumed to be below `last - first`. -/
theorem C21_random_swap_partial (gen : Gen σ) (hg : ∀ s d, 0 < d → (gen s d).1 < d) (pre xs post : List α) (s : σ) :
    ∃ zs s', randomSwap gen (pre ++ xs ++ post) pre.length (pre.length + xs.length) s = some (pre ++ zs ++ post, s') ∧ zs.Perm xs := by
  unfold randomSwap
  rw [Nat.add_sub_cancel_left]
  split
  · rename_i hl
    have h1 := hg s xs.length (by omega)
    have h2 := hg (gen s xs.length).2 xs.length (by omega)
    simp only
    split
    · have hi : pre.length + (gen s xs.length).1 < (pre ++ xs ++ post).length := by simp; omega
      have hj : pre.length + (gen (gen s xs.length).2 xs.length).1 < (pre ++ xs ++ post).length := by simp; omega
      rw [swp_eq hi hj]
      obtain ⟨ys, e, hp⟩ := (swap_rearr hi hj (a := pre.length) (b := pre.length + xs.length) (by omega) (by omega) (by omega) (by omega)).segment
      exact ⟨ys, _, by rw [e]; rfl, hp⟩
    · exact ⟨xs, _, rfl, .refl _⟩
  · exact ⟨xs, s, rfl, .refl _⟩

/-- Exactly which pairs of draws are in range: with nothing behind the range the call is defined iff both draws
are below `last - first` or they are equal. -/
theorem C21_random_swap_defined (gen : Gen σ) (hg : gen.InRange) (pre xs : List α) (s : σ) (hl : 1 < xs.length) :
    (randomSwap gen (pre ++ xs) pre.length (pre.length + xs.length) s).isSome = true ↔
      ((gen s xs.length).1 = (gen (gen s xs.length).2 xs.length).1 ∨
        ((gen s xs.length).1 < xs.length ∧ (gen (gen s xs.length).2 xs.length).1 < xs.length)) := by
  unfold randomSwap
  rw [Nat.add_sub_cancel_left, if_pos hl]
  simp only
  have h1 := hg s xs.length
  have h2 := hg (gen s xs.length).2 xs.length
  generalize (gen s xs.length).1 = i at *
  generalize (gen (gen s xs.length).2 xs.length).1 = j at *
  by_cases hij : i = j
  · rw [if_neg (by simp [hij])]; simp [hij]
  · rw [if_pos hij]
    by_cases hb : i < xs.length ∧ j < xs.length
    · rw [swp_eq (by simp; omega) (by simp; omega)]
      simp [hb]
    · have : swp (pre ++ xs) (pre.length + i) (pre.length + j) = none := by
        unfold swp rd
        rcases Nat.lt_or_ge i xs.length with hi | hi
        · have hj : xs.length ≤ j := by omega
          rw [List.getElem?_eq_none (i := pre.length + j) (by simp; omega)]
          simp
        · rw [List.getElem?_eq_none (i := pre.length + i) (by simp; omega)]
          rfl
      rw [this]
      simp [hij, hb]

example : ∃ zs s', randomSwap (fun (l : List Nat) d => (l.headD 0 % d, l.tail)) ([7] ++ [1, 2, 3] ++ [7]) 1 4 [0, 2] = some ([7] ++ zs ++ [7], s') ∧ zs.Perm [1, 2, 3] :=
  C21_random_swap_partial _ (fun _ _ h => Nat.mod_lt _ h) [7] [1, 2, 3] [7] [0, 2]
example : (randomSwap replay ([7] ++ [1, 2, 3]) 1 4 [0, 2]).isSome = true :=
  (C21_random_swap_defined replay replay_inRange [7] [1, 2, 3] [0, 2] (by decide)).mpr (by decide)

end Sprout
