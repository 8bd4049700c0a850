import Mathlib.Algebra.Order.Archimedean.Real.Basic

/-! # Rounding of real numbers to integers -/

namespace Sprout

/-- `n` is the greatest integer not above `x` -/
def IsFloor (n x : ℝ) : Prop := (∃ k : ℤ, n = k) ∧ n ≤ x ∧ x < n + 1

/-- `n` is the least integer not below `x` -/
def IsCeil (n x : ℝ) : Prop := (∃ k : ℤ, n = k) ∧ x ≤ n ∧ n < x + 1

/-- `n` is `x` without its fraction -/
def IsTrunc (n x : ℝ) : Prop := (∃ k : ℤ, n = k) ∧ |n| ≤ |x| ∧ |x| < |n| + 1 ∧ 0 ≤ n * x

/-- `n` is the integer nearest to `x`, the one away from zero if there are two -/
def IsRound (n x : ℝ) : Prop := (∃ k : ℤ, n = k) ∧ |x - n| ≤ 1 / 2 ∧ (|x - n| = 1 / 2 → |x| < |n|)

end Sprout
