import Mathlib.Analysis.SpecialFunctions.Exp

/-!
# The logistic function: `sprout/math/sigmoid.hpp`

Numbers are real; `R` rounds the result of every operation, and is the identity for exact arithmetic. `exp` is the rounded exponential function.
Overflow is not modelled; the overloads for integers convert and call those for floating point numbers.
-/

namespace Sprout.Sigmoid

/-- `sigmoid_impl(x)` (sigmoid.hpp 25-29), `sigmoid(x)` (36-43) -/
noncomputable def sigmoid1 (R : ℝ → ℝ) (x : ℝ) : ℝ := R (1 / R (1 + R (Real.exp (-x))))

/-- `sigmoid_impl(x, a)` (30-34), `sigmoid(x, a)` (44-51) -/
noncomputable def sigmoid2 (R : ℝ → ℝ) (x a : ℝ) : ℝ := sigmoid1 R (R (a * x))

/-- `d_sigmoid_impl_1(s)` (77-81) -/
noncomputable def dImpl1 (R : ℝ → ℝ) (s : ℝ) : ℝ := R (s * R (1 - s))

/-- `d_sigmoid_impl_1(s, a)` (82-86) -/
noncomputable def dImpl2 (R : ℝ → ℝ) (s a : ℝ) : ℝ := R (R (a * s) * R (1 - s))

/-- `d_sigmoid(x)` (87-91, 98-105) -/
noncomputable def dSigmoid1 (R : ℝ → ℝ) (x : ℝ) : ℝ := dImpl1 R (sigmoid1 R x)

/-- `d_sigmoid(x, a)` (92-96, 106-113) -/
noncomputable def dSigmoid2 (R : ℝ → ℝ) (x a : ℝ) : ℝ := dImpl2 R (sigmoid2 R x a) a

/-- `d2_sigmoid_impl_1(s)` (139-143) -/
noncomputable def d2Impl1 (R : ℝ → ℝ) (s : ℝ) : ℝ := R (R (s * R (1 - s)) * R (1 - R (2 * s)))

/-- `d2_sigmoid_impl_1(s, a)` (144-148) -/
noncomputable def d2Impl2 (R : ℝ → ℝ) (s a : ℝ) : ℝ := R (R (R (R (a * a) * s) * R (1 - s)) * R (1 - R (2 * s)))

/-- `d2_sigmoid(x)` (149-153, 160-167) -/
noncomputable def d2Sigmoid1 (R : ℝ → ℝ) (x : ℝ) : ℝ := d2Impl1 R (sigmoid1 R x)

/-- `d2_sigmoid(x, a)` (154-158, 168-175) -/
noncomputable def d2Sigmoid2 (R : ℝ → ℝ) (x a : ℝ) : ℝ := d2Impl2 R (sigmoid2 R x a) a

end Sprout.Sigmoid
