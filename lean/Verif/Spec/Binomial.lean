import Verif.Spec.RandArith

/-! # Reference notions for the binomial distribution -/

namespace Sprout.RandDist

/-- the correction of Stirling's formula for `k!`, in powers of `k + 1` -/
noncomputable def stirlingCorrection (k : ℕ) : ℝ :=
  Real.log (k.factorial : ℝ) - (Real.log (2 * Real.pi) / 2 + (k + 1 / 2) * Real.log (k + 1) - (k + 1))

/-- the smaller one of the probabilities of success and failure -/
noncomputable def smaller (p : ℝ) : ℝ := if 1 / 2 < p then 1 - p else p

end Sprout.RandDist
