import Verif.Model.MathConst
import Mathlib.Analysis.SpecialFunctions.Trigonometric.Basic
import Mathlib.Analysis.Real.Sqrt
import Mathlib.Analysis.SpecialFunctions.Log.Basic

/-!
# The numbers for which the constants of `sprout/math/constants.hpp` are named
-/

namespace Sprout.MathConst

noncomputable def Const.real : Const → ℝ
  | .pi => Real.pi
  | .halfPi => Real.pi / 2
  | .thirdPi => Real.pi / 3
  | .twoThirdsPi => 2 * Real.pi / 3
  | .quarterPi => Real.pi / 4
  | .threeQuartersPi => 3 * Real.pi / 4
  | .twoPi => 2 * Real.pi
  | .fourPi => 4 * Real.pi
  | .twoDivPi => 2 / Real.pi
  | .rootTwoDivPi => √(2 / Real.pi)
  | .rootPi => √Real.pi
  | .oneDivRootPi => 1 / √Real.pi
  | .rootOneDivPi => √(1 / Real.pi)
  | .twoDivRootPi => 2 / √Real.pi
  | .half => 1 / 2
  | .quarter => 1 / 4
  | .third => 1 / 3
  | .twoThirds => 2 / 3
  | .rootTwo => √2
  | .rootThree => √3
  | .halfRootTwo => √2 / 2
  | .e => Real.exp 1
  | .lnTen => Real.log 10
  | .lnTwo => Real.log 2
  | .phi => (1 + √5) / 2

end Sprout.MathConst
