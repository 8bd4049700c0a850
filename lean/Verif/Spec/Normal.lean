import Mathlib.Probability.Distributions.Gaussian.Real
import Verif.Spec.RandArith

/-! # Reference notions for the normal distribution -/

namespace Sprout.RandDist
open MeasureTheory ProbabilityTheory

/-- the value with the radius of the draw `b` and the cosine or sine `c` -/
noncomputable def normalValue (mean sigma b c : ℝ) : ℝ := mean + sigma * (Real.sqrt (-2 * Real.log (1 - b)) * c)

/-- pairs of values, each from two draws -/
noncomputable def normalPairs {E : Type} (mean sigma : ℝ) (U : E → ℝ × E) : E → ℕ → List ℝ
  | _, 0 => []
  | e, n + 1 =>
    normalValue mean sigma (U (U e).2).1 (Real.cos (2 * Real.pi * (U e).1)) ::
    normalValue mean sigma (U (U e).2).1 (Real.sin (2 * Real.pi * (U e).1)) ::
    normalPairs mean sigma U (U (U e).2).2 n

/-- two independent uniform draws -/
noncomputable def twoDraws : Measure (ℝ × ℝ) := volume.restrict (Set.Ico 0 1 ×ˢ Set.Ico 0 1)

/-- the law of two independent normal values -/
noncomputable def twoNormal (mean sigma : ℝ) : Measure (ℝ × ℝ) :=
  (gaussianReal mean ⟨sigma ^ 2, sq_nonneg _⟩).prod (gaussianReal mean ⟨sigma ^ 2, sq_nonneg _⟩)

end Sprout.RandDist
