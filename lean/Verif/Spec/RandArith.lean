import Mathlib.Analysis.SpecialFunctions.Log.Basic
import Mathlib.Analysis.SpecialFunctions.Pow.Real
import Mathlib.Analysis.SpecialFunctions.Trigonometric.Basic
import Mathlib.Data.Nat.Choose.Sum
import Verif.Model.RandArith

/-!
# Exact real arithmetic, and reference notions for discrete distributions
-/

namespace Sprout.RandDist
open Classical

/-- the exact real numbers as a `RealType` -/
noncomputable instance : Arith ℝ where
  lit q := (q : ℝ)
  lt x y := decide (x < y)
  le x y := decide (x ≤ y)
  floor x := (⌊x⌋ : ℝ)
  abs x := |x|
  log := Real.log
  exp := Real.exp
  sqrt := Real.sqrt
  cos := Real.cos
  sin := Real.sin
  twoPi := 2 * Real.pi
  pow x y := x ^ y
  trunc x := some (if 0 ≤ x then ⌊x⌋ else ⌈x⌉)

/-- distribution function of the probabilities `f 0`, `f 1`, ... -/
noncomputable def cdf (f : ℕ → ℝ) (n : ℕ) : ℝ := ∑ i ∈ Finset.range (n + 1), f i

/-- `n` is the `u`-quantile: the least number whose distribution function reaches `u` -/
def Quantile (f : ℕ → ℝ) (u : ℝ) (n : ℕ) : Prop := u ≤ cdf f n ∧ ∀ m < n, cdf f m < u

/-- the Poisson probabilities -/
noncomputable def poissonProb (mean : ℝ) (k : ℕ) : ℝ := Real.exp (-mean) * mean ^ k / k.factorial

/-- the binomial probabilities -/
noncomputable def binomialProb (t : ℕ) (p : ℝ) (k : ℕ) : ℝ := t.choose k * p ^ k * (1 - p) ^ (t - k)

/-- a uniform generator -/
def Uniform {E : Type} (U : E → ℝ × E) : Prop := ∀ e, 0 ≤ (U e).1 ∧ (U e).1 < 1

/-- `int` -/
def int32 : IntTy := ⟨-2 ^ 31, 2 ^ 31 - 1⟩

end Sprout.RandDist
