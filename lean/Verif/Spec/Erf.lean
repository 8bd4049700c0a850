import Mathlib.MeasureTheory.Integral.IntervalIntegral.Basic
import Mathlib.Analysis.SpecialFunctions.Exp
import Mathlib.Analysis.SpecialFunctions.Sqrt
import Mathlib.Analysis.SpecialFunctions.Trigonometric.Basic
import Mathlib.MeasureTheory.Constructions.BorelSpace.Real
import Mathlib.MeasureTheory.Measure.Lebesgue.Basic

/-! The error function, `2/√π ∫₀ˣ exp(-s²) ds` -/

namespace Sprout.Spec

/-- the error function -/
noncomputable def erf (x : ℝ) : ℝ := 2 / √Real.pi * ∫ s in (0 : ℝ)..x, Real.exp (-s ^ 2)

end Sprout.Spec
