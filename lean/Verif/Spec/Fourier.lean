import Mathlib.Analysis.SpecialFunctions.Trigonometric.Basic

/-!
# The discrete Fourier transform
-/

namespace Sprout.Spec
open Complex

/-- the Fourier coefficient number `k` of a sequence of `n` complex numbers: `∑ xⱼ exp(-2πi jk / n)` -/
noncomputable def dftCoeff (x : List ℂ) (k : Nat) : ℂ :=
  ∑ j : Fin x.length, x[j] * exp (-(2 * Real.pi * I * j * k / x.length))

/-- the discrete Fourier transform -/
noncomputable def dft (x : List ℂ) : List ℂ := (List.range x.length).map (dftCoeff x)

/-- number `k` of the inverse transform: `1/n ∑ xⱼ exp(2πi jk / n)` -/
noncomputable def idftCoeff (x : List ℂ) (k : Nat) : ℂ :=
  (∑ j : Fin x.length, x[j] * exp (2 * Real.pi * I * j * k / x.length)) / x.length

/-- the inverse discrete Fourier transform -/
noncomputable def idft (x : List ℂ) : List ℂ := (List.range x.length).map (idftCoeff x)

end Sprout.Spec
