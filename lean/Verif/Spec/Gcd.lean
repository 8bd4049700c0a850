import Mathlib.Data.Int.GCD

/-! # Greatest common divisors and least common multiples, by divisibility -/

namespace Sprout.Spec

/-- `g` is the non-negative greatest common divisor -/
def IsGcd (a b g : Int) : Prop := 0 ≤ g ∧ g ∣ a ∧ g ∣ b ∧ ∀ d : Int, d ∣ a → d ∣ b → d ∣ g ∧ (g ≠ 0 → d ≤ g)

/-- `l` is the least non-negative common multiple: it divides every common multiple and is at most every positive one -/
def IsLcm (a b l : Int) : Prop :=
  0 ≤ l ∧ a ∣ l ∧ b ∣ l ∧ ∀ m : Int, a ∣ m → b ∣ m → l ∣ m ∧ (0 < m → l ≤ m)

end Sprout.Spec
