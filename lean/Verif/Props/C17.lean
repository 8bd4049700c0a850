import Verif.Proofs.IsPermutation

/-!
# C17: is_permutation decides multiset equality

The number of occurrences of `v` in `xs` is `xs.countP (pred · v)`. Both iterator categories, both overloads.
The three-iterator overload requires a second range of the length of the first.
-/

namespace Sprout
variable {α : Type}

/-- equal multiplicities of every value -/
def Spec.SameCounts (pred : α → α → Bool) (xs ys : List α) : Prop :=
  ∀ v, xs.countP (fun z => pred z v) = ys.countP (fun z => pred z v)

theorem C17_is_permutation2 (pred : α → α → Bool) (h : BoolEquiv pred) (pre1 xs post1 pre2 ys post2 : List α) :
    ∃ b, isPermutation2Ra (pre1 ++ xs ++ post1) (pre2 ++ ys ++ post2) pred pre1.length (pre1.length + xs.length) pre2.length (pre2.length + ys.length) = some b ∧
      isPermutation2Fwd (pre1 ++ xs ++ post1) (pre2 ++ ys ++ post2) pred pre1.length (pre1.length + xs.length) pre2.length (pre2.length + ys.length) = some b ∧
      (b = true ↔ xs.length = ys.length ∧ Spec.SameCounts pred xs ys) := by
  unfold isPermutation2Ra isPermutation2Fwd
  have hm1 := mismatch2Ra_eq pred pre1 xs post1 pre2 ys post2
  have hm2 := mismatch2In_eq pred pre1 xs post1 pre2 ys post2
  change _ = some (pre1.length + agree pred xs ys, pre2.length + agree pred xs ys) at hm1 hm2
  rw [hm1, hm2]
  simp only [Option.bind_eq_bind, Option.bind_some, Nat.add_sub_cancel_left, Nat.add_sub_add_left]
  obtain ⟨d1, d2⟩ := agree_le pred xs ys
  by_cases hl : xs.length = ys.length
  · have i1 := impl_spec goodFn_ra pred (pre1 ++ xs.take (agree pred xs ys)) (xs.drop (agree pred xs ys)) post1
      (pre2 ++ ys.take (agree pred xs ys)) (ys.drop (agree pred xs ys)) post2
    have i2 := impl_spec goodFn_in pred (pre1 ++ xs.take (agree pred xs ys)) (xs.drop (agree pred xs ys)) post1
      (pre2 ++ ys.take (agree pred xs ys)) (ys.drop (agree pred xs ys)) post2
    have e1 : (pre1 ++ xs.take (agree pred xs ys)).length = pre1.length + agree pred xs ys := by simp; omega
    have e2 : (pre2 ++ ys.take (agree pred xs ys)).length = pre2.length + agree pred xs ys := by simp; omega
    rw [e1, e2, List.append_assoc pre1, List.append_assoc pre2, List.take_append_drop, List.take_append_drop, List.length_drop, List.length_drop,
      show pre1.length + agree pred xs ys + (xs.length - agree pred xs ys) = pre1.length + xs.length by omega,
      show pre2.length + agree pred xs ys + (ys.length - agree pred xs ys) = pre2.length + ys.length by omega] at i1 i2
    have hl2 : xs.length - agree pred xs ys = ys.length - agree pred xs ys := by omega
    rw [if_pos hl, if_pos hl2, i2.2]
    refine ⟨_, ?_, rfl, by rw [tests_iff h xs ys hl]; simp [hl, Spec.SameCounts]⟩
    split
    · rename_i hd
      have : xs.drop (agree pred xs ys) = [] := List.drop_eq_nil_iff.mpr (by omega)
      rw [this]
      rfl
    · rename_i hd
      exact i1.1 (fun e => hd (by have := List.drop_eq_nil_iff.mp e; omega))
  · exact ⟨false, by rw [if_neg hl], by rw [if_neg (by omega)], by simp [hl]⟩

theorem C17_is_permutation (pred : α → α → Bool) (h : BoolEquiv pred) (pre1 xs post1 pre2 ys post2 : List α) (hl : xs.length = ys.length) :
    ∃ b, isPermutationRa (pre1 ++ xs ++ post1) (pre2 ++ ys ++ post2) pred pre1.length (pre1.length + xs.length) pre2.length = some b ∧
      isPermutationFwd (pre1 ++ xs ++ post1) (pre2 ++ ys ++ post2) pred pre1.length (pre1.length + xs.length) pre2.length = some b ∧
      (b = true ↔ Spec.SameCounts pred xs ys) := by
  unfold isPermutationRa isPermutationFwd
  rw [mismatchRa_eq _ _ _ _ _ _ _ (by omega), mismatchIn_eq _ _ _ _ _ _ _ (by omega)]
  change ∃ b, Option.bind (some (pre1.length + agree pred xs ys, pre2.length + agree pred xs ys)) _ = _ ∧
    (Option.bind (some (pre1.length + agree pred xs ys, pre2.length + agree pred xs ys)) _) = _ ∧ _
  simp only [Option.bind_some, Nat.add_sub_add_left]
  obtain ⟨d1, d2⟩ := agree_le pred xs ys
  have i1 := impl_spec goodFn_ra pred (pre1 ++ xs.take (agree pred xs ys)) (xs.drop (agree pred xs ys)) post1
      (pre2 ++ ys.take (agree pred xs ys)) (ys.drop (agree pred xs ys)) post2
  have i2 := impl_spec goodFn_in pred (pre1 ++ xs.take (agree pred xs ys)) (xs.drop (agree pred xs ys)) post1
      (pre2 ++ ys.take (agree pred xs ys)) (ys.drop (agree pred xs ys)) post2
  have e1 : (pre1 ++ xs.take (agree pred xs ys)).length = pre1.length + agree pred xs ys := by simp; omega
  have e2 : (pre2 ++ ys.take (agree pred xs ys)).length = pre2.length + agree pred xs ys := by simp; omega
  rw [e1, e2, List.append_assoc pre1, List.append_assoc pre2, List.take_append_drop, List.take_append_drop, List.length_drop, List.length_drop,
      show pre1.length + agree pred xs ys + (xs.length - agree pred xs ys) = pre1.length + xs.length by omega, ← hl] at i1 i2
  refine ⟨allTests pred (ys.drop (agree pred xs ys)) [] (xs.drop (agree pred xs ys)), ?_, ?_, tests_iff h xs ys hl⟩
  · split
    · rename_i hd
      have : xs.drop (agree pred xs ys) = [] := List.drop_eq_nil_iff.mpr (by omega)
      rw [this]
      rfl
    · rename_i hd
      exact i1.1 (fun e => hd (by have := List.drop_eq_nil_iff.mp e; omega))
  · split
    · rename_i hd
      have : xs.drop (agree pred xs ys) = [] := List.drop_eq_nil_iff.mpr (by omega)
      rw [this]
      rfl
    · exact i2.2

/-- With `==` on a type with lawful equality: the second range is a permutation of the first. -/
theorem C17_perm [BEq α] [LawfulBEq α] (pre1 xs post1 pre2 ys post2 : List α) :
    ∃ b, isPermutation2Ra (pre1 ++ xs ++ post1) (pre2 ++ ys ++ post2) (· == ·) pre1.length (pre1.length + xs.length) pre2.length (pre2.length + ys.length) = some b ∧
      isPermutation2Fwd (pre1 ++ xs ++ post1) (pre2 ++ ys ++ post2) (· == ·) pre1.length (pre1.length + xs.length) pre2.length (pre2.length + ys.length) = some b ∧
      (b = true ↔ xs.Perm ys) := by
  obtain ⟨b, h1, h2, h3⟩ := C17_is_permutation2 (α := α) (· == ·) ⟨by simp, by simp, by simp⟩ pre1 xs post1 pre2 ys post2
  refine ⟨b, h1, h2, h3.trans ?_⟩
  constructor
  · rintro ⟨-, h⟩; exact List.perm_iff_count.mpr h
  · intro h; exact ⟨h.length_eq, fun v => h.countP_eq _⟩

/-! Non-trivial instances: equality modulo 10. -/

theorem boolEquiv_mod : BoolEquiv (fun a b : Nat => a % 10 == b % 10) :=
  ⟨by simp, fun a b h => by simp at *; omega, fun a b c h1 h2 => by simp at *; omega⟩

example : ∃ b, isPermutation2Ra ([0] ++ [11, 2, 3, 1] ++ []) ([] ++ [21, 1, 13, 12] ++ [7]) (fun a b : Nat => a % 10 == b % 10) 1 5 0 4 = some b ∧
      isPermutation2Fwd ([0] ++ [11, 2, 3, 1] ++ []) ([] ++ [21, 1, 13, 12] ++ [7]) (fun a b : Nat => a % 10 == b % 10) 1 5 0 4 = some b ∧
      (b = true ↔ [11, 2, 3, 1].length = [21, 1, 13, 12].length ∧ Spec.SameCounts (fun a b : Nat => a % 10 == b % 10) [11, 2, 3, 1] [21, 1, 13, 12]) :=
  C17_is_permutation2 _ boolEquiv_mod [0] [11, 2, 3, 1] [] [] [21, 1, 13, 12] [7]
example : isPermutation2Ra [1, 2, 2] [2, 1, 2] (· == ·) 0 3 0 3 = some true := by
  obtain ⟨b, h1, -, h3⟩ := C17_perm [] [1, 2, 2] [] [] [2, 1, 2] []
  rw [h3.mpr (by decide)] at h1
  exact h1
example : isPermutation2Fwd [1, 2, 2] [2, 1, 1] (· == ·) 0 3 0 3 = some false := by
  obtain ⟨b, -, h1, h3⟩ := C17_perm [] [1, 2, 2] [] [] [2, 1, 1] []
  cases b with
  | true => exact absurd (h3.mp rfl) (by decide)
  | false => exact h1

end Sprout
