import Verif.Proofs.Numeric

/-!
# C68: accumulate, reduce and transform_reduce are left folds
-/

namespace Sprout
variable {α β γ T : Type}

/-- both versions of `accumulate` combine from the left, for every operation -/
theorem C68_accumulate (op : T → α → T) (init : T) (pre xs post : List α) :
    accumulateRa (pre ++ xs ++ post) pre.length (pre.length + xs.length) init op = some (xs.foldl op init) ∧
    accumulateIn (pre ++ xs ++ post) pre.length (pre.length + xs.length) init op = some (xs.foldl op init) := by
  constructor
  · unfold accumulateRa
    by_cases h : xs = []
    · subst h; simp
    · have hl := List.length_pos_iff.2 h
      rw [if_neg (by omega), Nat.add_sub_cancel_left]
      exact accRa_eq op _ pre xs post init rfl hl
  · rw [accumulateIn, dbl_run (finIf_idem _) _ _ _ 1 (Nat.le_refl _) (accumulateIn_run op xs pre post init)]; rfl

/-- `reduce` without initial value begins with the value-initialised element -/
theorem C68_reduce (plus : α → α → α) (zero : α) (pre xs post : List α) :
    reduce0 (pre ++ xs ++ post) pre.length (pre.length + xs.length) zero plus = some (xs.foldl plus zero) :=
  (C68_accumulate plus zero pre xs post).1

theorem C68_transform_reduce (op : T → β → T) (un : α → β) (init : T) (pre xs post : List α) :
    transformReduceRa (pre ++ xs ++ post) pre.length (pre.length + xs.length) init op un = some ((xs.map un).foldl op init) ∧
    transformReduceIn (pre ++ xs ++ post) pre.length (pre.length + xs.length) init op un = some ((xs.map un).foldl op init) := by
  rw [List.foldl_map]
  exact C68_accumulate _ init pre xs post

/-- binary `transform_reduce`; the second range is at least as long as the first -/
theorem C68_transform_reduce2 (op1 : T → γ → T) (op2 : α → β → γ) (init : T) (pre xs post : List α) (pre' ys post' : List β) (hl : xs.length ≤ ys.length) :
    transformReduce2Ra (pre ++ xs ++ post) (pre' ++ ys ++ post') pre.length (pre.length + xs.length) pre'.length init op1 op2
      = some ((List.zipWith op2 xs ys).foldl op1 init) ∧
    transformReduce2In (pre ++ xs ++ post) (pre' ++ ys ++ post') pre.length (pre.length + xs.length) pre'.length init op1 op2
      = some ((List.zipWith op2 xs ys).foldl op1 init) := by
  have hz : (List.zipWith op2 xs ys).foldl op1 init = (xs.zip ys).foldl (fun t p => op1 t (op2 p.1 p.2)) init := by
    clear hl
    induction xs generalizing ys init with
    | nil => rfl
    | cons x xs ih => cases ys with
      | nil => rfl
      | cons y ys => exact ih (op1 init (op2 x y)) ys
  rw [hz]
  constructor
  · unfold transformReduce2Ra
    by_cases h : xs = []
    · subst h; simp
    · have hp := List.length_pos_iff.2 h
      rw [if_neg (by omega), Nat.add_sub_cancel_left]
      have e : pre' ++ ys ++ post' = pre' ++ ys.take xs.length ++ (ys.drop xs.length ++ post') := by
        rw [List.append_assoc, List.append_assoc, ← List.append_assoc (ys.take _), List.take_append_drop]
      have := trRa_eq (fun (t : T) x y => op1 t (op2 x y)) _ pre xs post pre' (ys.take xs.length) (ys.drop xs.length ++ post') init rfl (by simp; omega) hp
      rw [e, this]
      congr 2
      conv_rhs => rw [← List.take_append_drop xs.length ys]
      rw [← List.append_nil xs, List.zip_append (by simp; omega)]
      simp
  · obtain ⟨j, r⟩ := transformReduce2In_run op1 op2 xs ys pre post pre' post' init hl
    rw [transformReduce2In, dbl_run (finIf_idem _) _ _ _ 1 (Nat.le_refl _) r]; rfl

/-- over a commutative monoid `transform_reduce` with `+` and `*` is the sum of the products -/
example : transformReduce2Ra [9, 1, 2, 3] [4, 5, 6, 9] 1 4 0 (100 : Int) (· + ·) (· * ·) = some (100 + (1 * 4 + 2 * 5 + 3 * 6)) :=
  (C68_transform_reduce2 (T := Int) (· + ·) (· * ·) 100 [9] [1, 2, 3] [] [] [4, 5, 6] [9] (by decide)).1

/-- not associative: the order is observable -/
example : accumulateRa [9, 1, 2, 3, 9] 1 4 (10 : Int) (· - ·) = some (((10 - 1) - 2) - 3) ∧ accumulateIn [9, 1, 2, 3, 9] 1 4 (10 : Int) (· - ·) = some 4 :=
  C68_accumulate (· - ·) (10 : Int) [9] [1, 2, 3] [9]

end Sprout
