import Verif.Model.InsertIter
import Verif.Props.C81

/-!
# C161: insert iterators

The specification: the values are between the elements before the position and those from it on, in their order; at the front the assignment of one
value after another reverses them.
-/

namespace Sprout
open InsertIter Adaptor

variable {α : Type}

/-- the full statement for assignments -/
def C161_statement (k : Kind) : Prop :=
  ∀ (c : List Int) (i : Nat) (xs : List Int), i ≤ c.length → ∃ s, assignAll k (c, some i) xs = some s ∧ s.1 = c.take i ++ xs ++ c.drop i

/-- in lists the values are inserted in their order, and the iterator still points to the element it pointed to -/
theorem C161_nodes_partial (c : List α) (i : Nat) (xs : List α) (hi : i ≤ c.length) :
    assignAll .nodes (c, some i) xs = some (c.take i ++ xs ++ c.drop i, some (i + xs.length)) := by
  induction xs generalizing c i with
  | nil => simp [assignAll]
  | cons v xs ih =>
    have hl : (c.take i).length = i := by simp; omega
    have h1 : (c.take i ++ v :: c.drop i).take (i + 1) = c.take i ++ [v] := by
      rw [List.take_append, List.take_of_length_le (by omega), hl, show i + 1 - i = 1 by omega]
      rfl
    have h2 : (c.take i ++ v :: c.drop i).drop (i + 1) = c.drop i := by
      rw [List.drop_append, List.drop_of_length_le (by omega), hl, show i + 1 - i = 1 by omega]
      rfl
    simp only [assignAll, assign, Option.bind_eq_bind, Option.bind_some, hi, if_true, insertAt]
    rw [ih (c.take i ++ v :: c.drop i) (i + 1) (by simp; omega), h1, h2]
    simp only [List.append_assoc, List.cons_append, List.nil_append, List.length_cons, Option.some.injEq, Prod.mk.injEq, true_and]
    omega

/-- in vectors one value can be inserted -/
theorem C161_vector_partial (c : List α) (i : Nat) (v : α) (hi : i ≤ c.length) :
    assignAll .vector (c, some i) [v] = some (c.take i ++ [v] ++ c.drop i, none) := by
  simp [assignAll, assign, hi, insertAt]

/-- the second value is inserted at an invalid iterator, whatever the vector -/
theorem C161_vector_refuted (c : List α) (i : Nat) (v w : α) (xs : List α) : assignAll .vector (c, some i) (v :: w :: xs) = none := by
  simp only [assignAll, assign, Option.bind_eq_bind, Option.bind_some]
  split <;> simp [insertAt]

/-- so the statement holds of lists and not of vectors -/
theorem C161_kinds_refuted : C161_statement .nodes ∧ ¬ C161_statement .vector := by
  refine ⟨fun c i xs hi => ⟨_, C161_nodes_partial c i xs hi, rfl⟩, fun h => ?_⟩
  obtain ⟨s, hs, -⟩ := h [] 0 [1, 2] (Nat.le_refl _)
  rw [C161_vector_refuted] at hs
  cases hs

/-- assignments at the back append the values -/
theorem C161_back (c xs : List α) : backAll c xs = c ++ xs := by
  induction xs generalizing c with
  | nil => simp [backAll]
  | cons v xs ih => simp [backAll, ih]

/-- assignments at the front put every value before the previous ones -/
theorem C161_front (c xs : List α) : frontAll c xs = xs.reverse ++ c := by
  induction xs generalizing c with
  | nil => simp [frontAll]
  | cons v xs ih => simp [frontAll, ih]

private theorem collect_eq (xs ys : List α) (pos : Nat) (hp : pos ≤ xs.length) (hx : xs.length + ys.length < 2 ^ 63) (n : Nat) :
    ∀ (s : Nat × Nat) (k : Nat), InsAt xs ys pos s k → k + n = xs.length + ys.length →
      collect xs ys pos n s = some ((xs.take pos ++ ys ++ xs.drop pos).drop k) := by
  obtain ⟨-, hend, hd, hn, -, -, he⟩ := C81_insert_range_partial xs ys pos hp hx
  have hl : (xs.take pos ++ ys ++ xs.drop pos).length = xs.length + ys.length := by simp; omega
  rw [hl] at hend
  induction n with
  | zero =>
    intro s k hs hk
    have : irEq s (xs.length, ys.length) = true := (he _ _ _ _ hs hend).2 (by omega)
    simp only [collect, this, if_true]
    rw [List.drop_of_length_le (by omega)]
  | succ n ih =>
    intro s k hs hk
    have : ¬ irEq s (xs.length, ys.length) = true := fun h => by
      have := (he _ _ _ _ hs hend).1 h
      omega
    obtain ⟨s', h1, h2⟩ := hn s k hs (by omega)
    simp only [collect, this, if_false, hd s k hs (by omega), h1, Option.bind_eq_bind, Option.bind_some, ih s' (k + 1) h2 (by omega), Bool.false_eq_true]
    rw [List.drop_eq_getElem_cons (i := k) (by omega)]

/-- the copies made by the algorithms of `sprout::fixed` have the values at the position in their order, and their number is that of `fit_size` -/
theorem C161_remake (xs ys : List α) (pos : Nat) (hp : pos ≤ xs.length) (hx : xs.length + ys.length < 2 ^ 63) :
    ∃ l, remake xs pos ys = some l ∧ l = xs.take pos ++ ys ++ xs.drop pos ∧ l.length = fitSize xs ys.length := by
  refine ⟨_, collect_eq xs ys pos hp hx _ (0, 0) 0 (C81_insert_range_partial xs ys pos hp hx).1 (by omega), by simp, ?_⟩
  simp [fitSize]
  omega

/-- the copy agrees with the assignments in lists and at the back -/
theorem C161_agree (xs ys : List α) (pos : Nat) (hp : pos ≤ xs.length) (hx : xs.length + ys.length < 2 ^ 63) :
    remake xs pos ys = (assignAll .nodes (xs, some pos) ys).map Prod.fst ∧ remakeBack xs ys = some (backAll xs ys) := by
  obtain ⟨l, h1, h2, -⟩ := C161_remake xs ys pos hp hx
  obtain ⟨m, h3, h4, -⟩ := C161_remake xs ys xs.length (Nat.le_refl _) hx
  refine ⟨by rw [h1, h2, C161_nodes_partial xs pos ys hp]; rfl, ?_⟩
  rw [remakeBack, h3, h4, C161_back]
  simp

/-- at the front it agrees only if the values read the same backwards: the copy keeps their order, the assignments reverse it -/
theorem C161_front_refuted (xs ys : List α) (hx : xs.length + ys.length < 2 ^ 63) : remakeFront xs ys = some (frontAll xs ys) ↔ ys.reverse = ys := by
  obtain ⟨l, h1, h2, -⟩ := C161_remake xs ys 0 (Nat.zero_le _) hx
  rw [remakeFront, h1, h2, C161_front]
  simp only [List.take_zero, List.nil_append, List.drop_zero, Option.some.injEq, List.append_cancel_right_eq]
  exact eq_comm

example : assignAll .nodes ([1, 2], some 1) [7, 8] = some (([1, 7, 8, 2] : List Nat), some 3) := by decide
example : assignAll .vector ([1, 2], some 1) [7, 8] = (none : Option (State Nat)) := by decide
example : remakeFront [1, 2] [7, 8] = some ([7, 8, 1, 2] : List Nat) ∧ frontAll [1, 2] [7, 8] = ([8, 7, 1, 2] : List Nat) := by decide

end Sprout
