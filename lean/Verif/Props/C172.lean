import Verif.Model.CountN

/-!
# C172: `count_n`, `count_n_if` and `equiv`

`count_n` counts in the `n` elements from the position, and is undefined if there are fewer. `equiv` of a strict weak ordering is an
equivalence, whatever the categories of the arguments are.
-/

namespace Sprout
open CountN

variable {α : Type}

theorem countNImpl_eq (l : List α) (p : α → Bool) : ∀ (n : Nat) (i c : Nat), 0 < n →
    countNImpl l p (i, c) n = if i + n ≤ l.length then some (i + n, c + ((l.drop i).take n).countP p) else none := by
  intro n
  induction n using Nat.strongRecOn with
  | _ n ih =>
    intro i c hn
    rw [countNImpl]
    by_cases h1 : n = 1
    · subst h1
      rw [if_pos rfl]
      by_cases hi : i < l.length
      · rw [if_pos (by omega)]
        simp only [List.getElem?_eq_getElem hi]
        rw [List.drop_eq_getElem_cons hi, List.take_succ_cons, List.take_zero, List.countP_cons, List.countP_nil, Nat.zero_add]
      · rw [if_neg (by omega)]
        simp only [List.getElem?_eq_none (Nat.le_of_not_lt hi)]
    · rw [if_neg h1, if_neg (by omega), ih (n / 2) (by omega) i c (by omega)]
      by_cases hh : i + n / 2 ≤ l.length
      · rw [if_pos hh]
        simp only []
        rw [ih (n - n / 2) (by omega) _ _ (by omega)]
        have e : i + n / 2 + (n - n / 2) = i + n := by omega
        rw [e]
        by_cases hf : i + n ≤ l.length
        · rw [if_pos hf, if_pos hf]
          congr 2
          have hsplit : (l.drop i).take n = (l.drop i).take (n / 2) ++ (l.drop (i + n / 2)).take (n - n / 2) := by
            conv => lhs; rw [show n = n / 2 + (n - n / 2) by omega, List.take_add, List.drop_drop]
          rw [hsplit, List.countP_append, Nat.add_assoc]
        · rw [if_neg hf, if_neg hf]
      · rw [if_neg hh, if_neg (by omega)]

/-- `count_n_if` counts the elements that satisfy the predicate among the `n` from the position -/
theorem C172_count_n_if (l : List α) (p : α → Bool) (first n : Nat) (h : first + n ≤ l.length) :
    countNIf l p first n = some (((l.drop first).take n).countP p) := by
  unfold countNIf
  by_cases hn : n = 0
  · subst hn; rfl
  · rw [if_neg hn, countNImpl_eq l p n first 0 (by omega), if_pos h, Option.map_some, Nat.zero_add]

/-- it is undefined if there are fewer elements -/
theorem C172_count_n_if_undefined (l : List α) (p : α → Bool) (first n : Nat) (hn : 0 < n) (h : l.length < first + n) :
    countNIf l p first n = none := by
  unfold countNIf
  rw [if_neg (by omega), countNImpl_eq l p n first 0 hn, if_neg (by omega)]; rfl

/-- `count_n` counts the elements that equal the value -/
theorem C172_count_n [DecidableEq α] (l : List α) (first n : Nat) (v : α) (h : first + n ≤ l.length) :
    countN l first n v = some (((l.drop first).take n).countP fun a => a = v) :=
  C172_count_n_if l (fun a => a = v) first n h

/-- a strict weak ordering -/
structure StrictWeakB (lt : α → α → Bool) : Prop where
  irrefl : ∀ a, lt a a = false
  trans : ∀ a b c, lt a b = true → lt b c = true → lt a c = true
  incomp : ∀ a b c, lt a b = false → lt b a = false → lt b c = false → lt c b = false → lt a c = false ∧ lt c a = false

/-- `equiv` of a strict weak ordering is an equivalence -/
theorem C172_equiv (lt : α → α → Bool) (h : StrictWeakB lt) : Equivalence fun a b => equivStrict lt a b = true := by
  refine ⟨fun a => by simp [equivStrict, h.irrefl], fun {a b} hab => ?_, fun {a b c} hab hbc => ?_⟩
  · simp only [equivStrict, Bool.and_eq_true, Bool.not_eq_true'] at *
    exact ⟨hab.2, hab.1⟩
  · simp only [equivStrict, Bool.and_eq_true, Bool.not_eq_true'] at *
    exact h.incomp a b c hab.1 hab.2 hbc.1 hbc.2

/-- two elements are equivalent if neither is less than the other -/
theorem C172_equiv_iff (lt : α → α → Bool) (x y : α) : equivStrict lt x y = true ↔ ¬ lt x y = true ∧ ¬ lt y x = true := by
  simp [equivStrict]

/-- forwarding gives the same if the comparison takes references or the arguments are lvalues -/
theorem C172_forward_partial (fn : α → α → Bool) (byValue : Bool) (moved : α → α) (x y : Arg α)
    (h : byValue = false ∨ ∃ a b, x = .lvalue a ∧ y = .lvalue b) :
    equivForward fn byValue moved x y = equivStrict fn x.value y.value := by
  rcases h with rfl | ⟨a, b, rfl, rfl⟩
  · rfl
  · cases byValue <;> rfl

/-- refuted: with rvalues and a comparison that takes values, the second call sees objects that have been moved from: 3 and 2 are
equivalent if a moved object is 0 -/
theorem C172_forward_refuted : ¬ ∀ (fn : Nat → Nat → Bool) (byValue : Bool) (moved : Nat → Nat) (x y : Arg Nat),
    equivForward fn byValue moved x y = equivStrict fn x.value y.value := by
  intro h
  exact absurd (h (fun a b => decide (a < b)) true (fun _ => 0) (.rvalue 3) (.rvalue 2)) (by decide)

example : countNIf [1, 2, 3, 4, 6, 8, 9] (fun a => a % 2 == 0) 1 5 = some 4 := by
  rw [C172_count_n_if _ _ _ _ (by decide)]; rfl
example : equivStrict (fun a b : Nat => decide (a / 10 < b / 10)) 31 38 = true := by decide

end Sprout
