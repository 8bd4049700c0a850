import Verif.Model.Rational
import Mathlib.Algebra.Order.Field.Rat

/-! # What a rational object represents -/

namespace Sprout.Spec

/-- the number represented -/
def val (q : Rational) : ℚ := (q.num : ℚ) / (q.den : ℚ)

/-- positive denominator, lowest terms -/
def Normal (q : Rational) : Prop := 0 < q.den ∧ ∀ d : Int, d ∣ q.num → d ∣ q.den → d ∣ 1

end Sprout.Spec
