import Mathlib.Analysis.SpecialFunctions.Trigonometric.Basic

/-!
# Second order filters: difference equation, transfer function, analog prototypes

The filters are discretised by the bilinear transform with the frequency `fc` (in cycles per sample) prewarped: the digital filter at
frequency `f` behaves as the analog prototype at `s = i · tan(π f) / tan(π fc)`.
-/

namespace Sprout.Analog

/-- the value `H(z)` of the transfer function of `a0 y[n] + a1 y[n-1] + a2 y[n-2] = b0 x[n] + b1 x[n-1] + b2 x[n-2]` -/
noncomputable def transfer (a0 a1 a2 b0 b1 b2 : ℝ) (z : ℂ) : ℂ :=
  (b0 + b1 * z⁻¹ + b2 * (z⁻¹) ^ 2) / (a0 + a1 * z⁻¹ + a2 * (z⁻¹) ^ 2)

/-- the point of the unit circle of the frequency `f` -/
noncomputable def circle (f : ℝ) : ℂ := Complex.exp (2 * Real.pi * f * Complex.I)

/-- the analog frequency that corresponds to `f`, in units of that of `fc` -/
noncomputable def warp (fc f : ℝ) : ℝ := Real.tan (Real.pi * f) / Real.tan (Real.pi * fc)

/-- the common denominator `s² + s/q + 1` -/
noncomputable def den (q : ℝ) (s : ℂ) : ℂ := s ^ 2 + s / q + 1

noncomputable def lowpass (q : ℝ) (s : ℂ) : ℂ := 1 / den q s
noncomputable def highpass (q : ℝ) (s : ℂ) : ℂ := s ^ 2 / den q s
noncomputable def bandpass (q : ℝ) (s : ℂ) : ℂ := (s / q) / den q s
noncomputable def bandstop (q : ℝ) (s : ℂ) : ℂ := (s ^ 2 + 1) / den q s

end Sprout.Analog
