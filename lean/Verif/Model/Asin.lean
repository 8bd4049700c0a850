import Verif.Model.Gamma
import Mathlib.Analysis.SpecialFunctions.Sqrt
import Mathlib.Analysis.SpecialFunctions.Trigonometric.Basic

/-!
# Arc sine and arc cosine (`sprout/math/asin.hpp`, `acos.hpp`), without the builtin functions

Simplifications: numbers are real, arithmetic, `sqrt` and `half_pi` are exact. `none` is a NaN.
-/

namespace Sprout.Asin

open Gamma (horner)

/-- the coefficients of `asin_impl_center_1` (asin.hpp 46-57) -/
def cCoef : List ℚ := [
  0.0316658385792867081040808, -0.0158620440988475212803145, 0.0192942786775238654913582, 0.0066153165197009078340075,
  0.0121483892822292648695383, 0.0138885410156894774969889, 0.0173593516996479249428647, 0.0223717830666671020710108,
  0.0303819580081956423799529, 0.0446428568582815922683933, 0.0750000000029696112392353, 0.1666666666666558995379880]

/-- the coefficients of `asin_impl_tail` (71-83) -/
def tCoef : List ℚ := [
  -0.0000121189820098929624806, 0.0001307564187657962919394, -0.0006702485124770180942917, 0.0021912255981979442677477,
  -0.0052049731575223952626203, 0.0097868293573384001221447, -0.0156746038587246716524035, 0.0229883479552557203133368,
  -0.0331919619444009606270380, 0.0506659694457588602631748, -0.0890259194305537131666744, 0.2145993335526539017488949,
  -1.5707961988153774692344105]

/-- `asin_impl_center_1` (42-60) -/
noncomputable def center1 (x x2 : ℝ) : ℝ := horner cCoef x2 * x2 * x + x

/-- `asin_impl_center` (61-65) -/
noncomputable def center (x : ℝ) : ℝ := center1 x (x * x)

/-- `asin_impl_tail` (66-85) -/
noncomputable def tail (x : ℝ) : ℝ := Real.pi / 2 + √(1 - x) * horner tCoef x

/-- `asin_impl` (86-93) -/
noncomputable def impl (x : ℝ) : ℝ := if x < -0.5 then -tail (-x) else if x > 0.5 then tail x else center x

/-- `asin` (98-116) of a finite number -/
noncomputable def asin (x : ℝ) : Option ℝ :=
  if |x| > 1 then none else if x = 0 then some x else some (if x < 0 then -impl (-x) else impl x)

/-- `acos_impl` (acos.hpp 40-44) -/
noncomputable def acosImpl (x : ℝ) : Option ℝ := (asin x).map fun y => Real.pi / 2 - y

/-- `acos` (acos.hpp 49-64) of a finite number -/
noncomputable def acos (x : ℝ) : Option ℝ := if |x| > 1 then none else if x = 1 then some 0 else acosImpl x

end Sprout.Asin
