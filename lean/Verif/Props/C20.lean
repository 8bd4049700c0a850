import Verif.Proofs.Shuffle

/-!
# C20: shuffle and sample produce permutations and subsets, in bounds

For every generator that satisfies the contract of the distribution (`Gen.InRange`); results of the form `some _`
include that every access is in range.
-/

namespace Sprout
variable {α σ : Type}

theorem C20_shuffle_permutation (gen : Gen σ) (hg : gen.InRange) (pre xs post : List α) (s : σ) :
    ∃ zs s', shuffle gen (pre ++ xs ++ post) pre.length (pre.length + xs.length) s = some (pre ++ zs ++ post, s') ∧ zs.Perm xs := by
  unfold shuffle
  rw [Nat.add_sub_cancel_left]
  split
  · have := shuffleLoop_spec gen hg post (xs.length - 1) pre xs s (by omega)
    rwa [show pre.length + xs.length - 1 = pre.length + (xs.length - 1) by omega]
  · exact ⟨xs, s, rfl, .refl _⟩

/-- every permutation is the outcome for some draws within the contract -/
theorem C20_shuffle_reaches_all (pre xs ys post : List α) (h : ys.Perm xs) :
    ∃ (gen : Gen (List Nat)) (ds : List Nat) (s' : List Nat), gen.InRange ∧
      shuffle gen (pre ++ xs ++ post) pre.length (pre.length + xs.length) ds = some (pre ++ ys ++ post, s') := by
  refine ⟨replay, ?_⟩
  unfold shuffle
  rw [Nat.add_sub_cancel_left]
  split
  · obtain ⟨ds, s', g⟩ := shuffleLoop_reach post (xs.length - 1) pre xs ys (by omega) h
    rw [show pre.length + (xs.length - 1) = pre.length + xs.length - 1 by omega] at g
    exact ⟨ds, s', replay_inRange, g⟩
  · refine ⟨[], [], replay_inRange, ?_⟩
    have : ys = xs := by
      match xs, ys, h with
      | [], ys, h => exact List.perm_nil.mp h
      | [x], ys, h => exact List.perm_singleton.mp h
      | _ :: _ :: _, _, _ => simp at *
    rw [this]

/-- Reservoir sampling writes exactly `min n (population size)` elements, a sub-multiset of the population. -/
theorem C20_sample_reservoir (gen : Gen σ) (popA xs popB outA room outB : List α) (n : Nat) (s : σ) (hr : room.length = min n xs.length) :
    ∃ zs s', sampleReservoir gen (popA ++ xs ++ popB) (outA ++ room ++ outB) popA.length (popA.length + xs.length) outA.length n s =
      some (outA ++ zs ++ outB, outA.length + min n xs.length, s') ∧ zs.length = min n xs.length ∧ zs.Subperm xs := by
  have hf := sampleFill_spec popA popB outA n xs [] room outB (by simp) (by simp [hr])
  simp only [List.nil_append, List.length_nil, Nat.zero_add, Nat.add_zero, Nat.sub_zero] at hf
  unfold sampleReservoir
  rw [hf]
  simp only [Option.bind_eq_bind, Option.bind_some]
  rw [show room.drop (min n xs.length) = [] by rw [List.drop_eq_nil_iff]; omega, List.append_nil]
  rcases Nat.lt_or_ge xs.length n with hn | hn
  rotate_left
  · obtain ⟨ws, s', f1, f2, f3⟩ := sampleLoop_spec gen popA popB outA outB n (xs.drop n) (xs.take n) (xs.take n) s (min n xs.length) (by simp; omega) (List.Subperm.refl _)
    rw [List.take_append_drop, show (xs.take n).length = min n xs.length by simp] at f1
    rw [f1]
    rw [List.take_append_drop] at f3
    exact ⟨ws, s', rfl, by omega, f3⟩
  · rw [List.take_of_length_le (by omega), Nat.min_eq_right (by omega), sampleLoop, if_pos rfl]
    exact ⟨xs, s, rfl, rfl, (List.Subperm.refl _)⟩

/-- Selection sampling writes exactly `min n (population size)` elements, a subsequence of the population. -/
theorem C20_sample_selection (gen : Gen σ) (hg : gen.InRange) (popA xs popB outA room outB : List α) (n : Nat) (s : σ) (hr : room.length = min n xs.length) :
    ∃ zs s', sampleSelection gen (popA ++ xs ++ popB) (outA ++ room ++ outB) popA.length (popA.length + xs.length) outA.length n s =
      some (outA ++ zs ++ outB, outA.length + min n xs.length, s') ∧ zs.length = min n xs.length ∧ zs.Sublist xs := by
  unfold sampleSelection
  rw [Nat.add_sub_cancel_left]
  exact selectLoop_spec gen hg popA popB outB xs [] outA room (min n xs.length) s (by omega) hr

/-! Non-trivial instances. -/

example : ∃ zs s', shuffle replay ([9] ++ [1, 2, 3, 4] ++ [8]) 1 5 [2, 1, 5] = some ([9] ++ zs ++ [8], s') ∧ zs.Perm [1, 2, 3, 4] :=
  C20_shuffle_permutation replay replay_inRange [9] [1, 2, 3, 4] [8] [2, 1, 5]
/-- one concrete run -/
example : shuffle replay [1, 2, 3] 0 3 [2, 1] = some ([3, 1, 2], []) := by
  have h1 : replay [2, 1] 2 = (2, [1]) := rfl
  have h2 : replay [1] 1 = (1, []) := rfl
  have h3 : shuffleSwap [1, 2, 3] 0 2 = some [3, 2, 1] := rfl
  have h4 : shuffleSwap [3, 2, 1] 1 1 = some [3, 1, 2] := rfl
  rw [shuffle, if_pos (by decide), shuffleLoop, if_pos (by decide)]
  simp only [Nat.add_one_sub_one, Nat.reduceSub, h1, h3, Option.bind_eq_bind, Option.bind_some]
  rw [shuffleLoop, if_pos (by decide)]
  simp only [Nat.zero_add, h2, h4, Option.bind_eq_bind, Option.bind_some]
  rw [shuffleLoop, if_neg (by decide)]
example : ∃ zs s', sampleReservoir replay ([] ++ [1, 2, 3, 4] ++ []) ([7] ++ [0, 0] ++ [7]) 0 4 1 2 [1, 0] = some ([7] ++ zs ++ [7], 3, s') ∧
    zs.length = 2 ∧ zs.Subperm [1, 2, 3, 4] :=
  C20_sample_reservoir replay [] [1, 2, 3, 4] [] [7] [0, 0] [7] 2 [1, 0] rfl
example : ∃ zs s', sampleSelection replay ([] ++ [1, 2, 3, 4] ++ []) ([7] ++ [0, 0] ++ [7]) 0 4 1 2 [3, 0] = some ([7] ++ zs ++ [7], 3, s') ∧
    zs.length = 2 ∧ zs.Sublist [1, 2, 3, 4] :=
  C20_sample_selection replay replay_inRange [] [1, 2, 3, 4] [] [7] [0, 0] [7] 2 [3, 0] rfl

end Sprout
