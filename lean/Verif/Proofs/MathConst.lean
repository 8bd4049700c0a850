import Verif.Spec.MathConst
import Verif.Proofs.FloatErr
import Mathlib.Analysis.SpecialFunctions.Complex.Arctan
import Mathlib.Analysis.SpecialFunctions.Trigonometric.Arctan
import Mathlib.Analysis.SpecificLimits.Basic
import Mathlib.Analysis.Real.Pi.Bounds
import Mathlib.Analysis.SpecialFunctions.Log.Deriv
import Mathlib.Analysis.Complex.ExponentialBounds

/-!
# Rational approximations of mathematical constants
-/

namespace Sprout.MathConst

/-- partial sums of the series of the arcus tangent of `1 / m` -/
def atanQ (m : ℕ) : ℕ → ℚ
  | 0 => 0
  | n + 1 => atanQ m n + (-1) ^ n * (1 / (m ^ (2 * n + 1) * (2 * n + 1)))

theorem atanQ_eq (m n : ℕ) :
    (atanQ m n : ℝ) = ∑ k ∈ Finset.range n, (-1) ^ k * (m : ℝ)⁻¹ ^ (2 * k + 1) / ((2 * k + 1 : ℕ) : ℝ) := by
  induction n with
  | zero => simp [atanQ]
  | succ n ih =>
    rw [Finset.sum_range_succ, atanQ, Rat.cast_add, ih]
    push_cast
    congr 1
    simp only [one_div, inv_pow, mul_inv]
    ring

theorem atan_bound (m n : ℕ) (hm : 2 ≤ m) : |Real.arctan (m : ℝ)⁻¹ - atanQ m n| ≤ 2 * ((m : ℝ)⁻¹ ^ 2) ^ n := by
  have hm' : (2 : ℝ) ≤ m := by exact_mod_cast hm
  have hi : (m : ℝ)⁻¹ ≤ 1 / 2 := by rw [inv_le_comm₀ (by linarith) (by norm_num)]; linarith
  have hi0 : 0 < (m : ℝ)⁻¹ := by positivity
  have h := (Real.hasSum_arctan (x := (m : ℝ)⁻¹) (by rw [Real.norm_eq_abs, abs_of_pos hi0]; linarith)).tendsto_sum_nat
  have hr : (m : ℝ)⁻¹ ^ 2 ≤ 1 / 4 := by nlinarith
  have := dist_le_of_le_geometric_of_tendsto ((m : ℝ)⁻¹ ^ 2) 1 (by linarith) (fun k => ?_) h n
  · rw [← atanQ_eq, Real.dist_eq, abs_sub_comm] at this
    refine le_trans this ?_
    rw [div_le_iff₀ (by linarith)]
    have : 0 < ((m : ℝ)⁻¹ ^ 2) ^ n := by positivity
    nlinarith
  · rw [Finset.sum_range_succ, Real.dist_eq, sub_add_cancel_left, abs_neg, abs_div, abs_mul, abs_pow, abs_neg, abs_one, one_pow,
      one_mul, one_mul, abs_of_pos (by positivity), abs_of_pos (by positivity), ← pow_mul]
    refine div_le_of_le_mul₀ (by positivity) (by positivity) ?_
    rw [pow_succ]
    have h1 : 0 < (m : ℝ)⁻¹ ^ (2 * k) := by positivity
    have h2 : (1 : ℝ) ≤ ((2 * k + 1 : ℕ) : ℝ) := by exact_mod_cast (by omega : 1 ≤ 2 * k + 1)
    nlinarith

/-- Machin's formula -/
def piQ : ℚ := 4 * (4 * atanQ 5 90 - atanQ 239 27)

theorem pi_near : |Real.pi - piQ| ≤ 1 / 10 ^ 120 := by
  have h := Real.four_mul_arctan_inv_5_sub_arctan_inv_239
  have h1 := atan_bound 5 90 (by norm_num)
  have h2 := atan_bound 239 27 (by norm_num)
  have e : (piQ : ℝ) = 4 * (4 * (atanQ 5 90 : ℝ) - atanQ 239 27) := by unfold piQ; push_cast; rfl
  rw [e]
  push_cast at h1 h2
  have i1 : 2 * (((5 : ℝ)⁻¹ ^ 2) ^ 90) ≤ 1 / 10 ^ 125 := by norm_num
  have i2 : 2 * (((239 : ℝ)⁻¹ ^ 2) ^ 27) ≤ 1 / 10 ^ 125 := by norm_num
  have j1 := abs_le.1 (le_trans h1 i1)
  have j2 := abs_le.1 (le_trans h2 i2)
  have i3 : 20 * (1 / 10 ^ 125 : ℝ) ≤ 1 / 10 ^ 120 := by norm_num
  rw [abs_le]
  constructor <;> linarith [j1.1, j1.2, j2.1, j2.2]

/-- partial sums of the series of the logarithm of `m / (m - 1)` -/
def logQ (m : ℕ) : ℕ → ℚ
  | 0 => 0
  | n + 1 => logQ m n + 1 / (m ^ (n + 1) * (n + 1))

theorem logQ_eq (m n : ℕ) : (logQ m n : ℝ) = ∑ k ∈ Finset.range n, (1 / (m : ℝ)) ^ (k + 1) / (k + 1) := by
  induction n with
  | zero => simp [logQ]
  | succ n ih =>
    rw [Finset.sum_range_succ, logQ, Rat.cast_add, ih]
    push_cast
    rw [one_div_pow, div_div]

theorem log_bound (m n : ℕ) (hm : 2 ≤ m) : |-Real.log (1 - 1 / m) - logQ m n| ≤ 2 * (1 / (m : ℝ)) ^ (n + 1) := by
  have hm' : (2 : ℝ) ≤ m := by exact_mod_cast hm
  have hi : 1 / (m : ℝ) ≤ 1 / 2 := one_div_le_one_div_of_le (by norm_num) hm'
  have hi0 : 0 < 1 / (m : ℝ) := by positivity
  have ha : |1 / (m : ℝ)| = 1 / (m : ℝ) := abs_of_pos hi0
  have h := Real.abs_log_sub_add_sum_range_le (x := 1 / (m : ℝ)) (by rw [ha]; linarith) n
  rw [ha, ← logQ_eq] at h
  rw [← abs_neg, show -(-Real.log (1 - 1 / m) - logQ m n) = logQ m n + Real.log (1 - 1 / m) by ring]
  refine le_trans h ?_
  rw [div_le_iff₀ (by linarith)]
  have : 0 < (1 / (m : ℝ)) ^ (n + 1) := by positivity
  nlinarith

def ln2Q : ℚ := logQ 2 400

theorem ln2_near : |Real.log 2 - ln2Q| ≤ 1 / 10 ^ 115 := by
  have h := log_bound 2 400 (by norm_num)
  have e : -Real.log (1 - 1 / (2 : ℕ)) = Real.log 2 := by
    rw [← Real.log_inv]
    norm_num
  rw [e] at h
  refine le_trans h ?_
  have i1 : (2 : ℝ) * (1 / ((2 : ℕ) : ℝ)) ^ (400 + 1) = 1 / 2 ^ 400 := by
    rw [pow_succ, one_div_pow]
    push_cast
    ring
  rw [i1]
  refine one_div_le_one_div_of_le (by positivity) ?_
  have : 10 ^ 115 ≤ 2 ^ 400 := by decide +kernel
  exact_mod_cast this

def ln10Q : ℚ := 3 * ln2Q + logQ 5 180

theorem ln10_near : |Real.log 10 - ln10Q| ≤ 1 / 10 ^ 114 := by
  have h := log_bound 5 180 (by norm_num)
  have h2 := ln2_near
  have e : Real.log 10 = 3 * Real.log 2 + -Real.log (1 - 1 / (5 : ℕ)) := by
    rw [← Real.log_inv, show (3 : ℝ) * Real.log 2 = Real.log (2 ^ 3) by rw [Real.log_pow]; norm_num, ← Real.log_mul (by norm_num) (by norm_num)]
    norm_num
  have e2 : (ln10Q : ℝ) = 3 * ln2Q + logQ 5 180 := by unfold ln10Q; push_cast; rfl
  rw [e, e2]
  have i1 : 2 * (1 / ((5 : ℕ) : ℝ)) ^ (180 + 1) ≤ 1 / 10 ^ 115 := by norm_num
  have j1 := abs_le.1 (le_trans h i1)
  have j2 := abs_le.1 h2
  have i3 : 4 * (1 / 10 ^ 115 : ℝ) ≤ 1 / 10 ^ 114 := by norm_num
  rw [abs_le]
  constructor <;> linarith [j1.1, j1.2, j2.1, j2.2]

/-- partial sums of the series of e -/
def eQ : ℕ → ℚ
  | 0 => 0
  | n + 1 => eQ n + 1 / n.factorial

theorem eQ_eq (n : ℕ) : (eQ n : ℝ) = ∑ k ∈ Finset.range n, 1 / (k.factorial : ℝ) := by
  induction n with
  | zero => simp [eQ]
  | succ n ih =>
    rw [Finset.sum_range_succ, eQ, Rat.cast_add, ih]
    push_cast
    rfl

theorem e_near : |Real.exp 1 - eQ 80| ≤ 1 / 10 ^ 115 := by
  have h := Real.exp_bound (x := 1) (by norm_num) (n := 80) (by norm_num)
  simp only [one_pow, abs_one, one_mul] at h
  rw [← eQ_eq] at h
  refine le_trans h ?_
  have h2 : (10 : ℕ) ^ 115 * 81 ≤ (80 : ℕ).factorial * 80 := by decide +kernel
  have h3 : (10 : ℝ) ^ 115 * 81 ≤ (80 : ℕ).factorial * 80 := by exact_mod_cast h2
  have h4 : (0 : ℝ) < (80 : ℕ).factorial := by exact_mod_cast Nat.factorial_pos 80
  generalize ((80 : ℕ).factorial : ℝ) = f at *
  rw [div_le_div_iff₀ (by push_cast; positivity) (by positivity)]
  push_cast
  linarith

/-- the difference from a square root -/
theorem sqrt_near {c l ε : ℝ} (hl : 0 < l) (hc : l ^ 2 / 4 ≤ c) (h : |l ^ 2 - c| ≤ ε * l * (3 / 2)) : |l - √c| ≤ ε := by
  have hc0 : 0 ≤ c := le_trans (by positivity) hc
  have h1 := Real.sq_sqrt hc0
  have h2 : l / 2 ≤ √c := by
    rw [Real.le_sqrt (by linarith) hc0]
    linarith
  have e : l ^ 2 - c = (l - √c) * (l + √c) := by rw [← h1, Real.sqrt_sq (Real.sqrt_nonneg _)]; ring
  rw [e, abs_mul, abs_of_pos (show 0 < l + √c by linarith)] at h
  have h3 := mul_le_mul_of_nonneg_left (show l * (3 / 2) ≤ l + √c by linarith) (abs_nonneg (l - √c))
  have h4 : |l - √c| * (l * (3 / 2)) ≤ ε * (l * (3 / 2)) := by linarith
  exact le_of_mul_le_mul_right h4 (by linarith)

/-- a rational approximation suffices -/
theorem via {c : ℝ} {l q : ℚ} {δ : ℚ} (h : |c - q| ≤ δ) (h2 : |l - q| ≤ 1 / 10 ^ 110 - δ) : |(l : ℝ) - c| ≤ 1 / 10 ^ 110 := by
  have h3 : |(l : ℝ) - q| ≤ 1 / 10 ^ 110 - δ := by
    have := (Rat.cast_le (K := ℝ)).2 h2
    push_cast at this
    exact this
  have e : (l : ℝ) - c = (l - q) + -(c - q) := by ring
  rw [e]
  refine le_trans (abs_add_le _ _) ?_
  rw [abs_neg]
  linarith

theorem pi_mul {k l : ℚ} (hk : 0 ≤ k ∧ k ≤ 4) (h2 : |l - k * piQ| ≤ 1 / 10 ^ 110 - 4 / 10 ^ 120) :
    |(l : ℝ) - k * Real.pi| ≤ 1 / 10 ^ 110 := by
  refine via (q := k * piQ) (δ := 4 / 10 ^ 120) ?_ h2
  push_cast
  have h := pi_near
  have hk0 : (0 : ℝ) ≤ k := by exact_mod_cast hk.1
  have hk4 : (k : ℝ) ≤ 4 := by exact_mod_cast hk.2
  rw [← mul_sub, abs_mul, abs_of_nonneg hk0]
  have := mul_le_mul hk4 h (abs_nonneg _) (by norm_num)
  linarith

/-- quotients by π -/
theorem pi_div {k l : ℚ} (hl : 0 ≤ l ∧ l ≤ 4) (h2 : |l * piQ - k| ≤ 3 / 10 ^ 110 - 4 / 10 ^ 120) :
    |(l : ℝ) - k / Real.pi| ≤ 1 / 10 ^ 110 := by
  have h := pi_near
  have hl0 : (0 : ℝ) ≤ l := by exact_mod_cast hl.1
  have hl4 : (l : ℝ) ≤ 4 := by exact_mod_cast hl.2
  have h3 : |(l : ℝ) * piQ - k| ≤ 3 / 10 ^ 110 - 4 / 10 ^ 120 := by
    have := (Rat.cast_le (K := ℝ)).2 h2
    push_cast at this
    exact this
  have h4 : |(l : ℝ) * (Real.pi - piQ)| ≤ 4 / 10 ^ 120 := by
    rw [abs_mul, abs_of_nonneg hl0]
    have := mul_le_mul hl4 h (abs_nonneg _) (by norm_num)
    linarith
  have hp := Real.pi_gt_three
  have e : (l : ℝ) - k / Real.pi = ((l * piQ - k) + l * (Real.pi - piQ)) / Real.pi := by
    field_simp
    ring
  rw [e, abs_div, abs_of_pos (by linarith : 0 < Real.pi), div_le_iff₀ (by linarith)]
  have h5 := abs_add_le ((l : ℝ) * piQ - k) (l * (Real.pi - piQ))
  have h6 : (1 / 10 ^ 110 : ℝ) * 3 ≤ 1 / 10 ^ 110 * Real.pi := mul_le_mul_of_nonneg_left (le_of_lt hp) (by positivity)
  linarith

/-- square roots of rational multiples of a real -/
theorem root_near {c : ℝ} {l q δ : ℚ} (hq : |c - q| ≤ δ) (hl : 0 < l)
    (h1 : l ^ 2 / 4 ≤ q - δ) (h2 : |l ^ 2 - q| ≤ 1 / 10 ^ 110 * l * (3 / 2) - δ) : |(l : ℝ) - √c| ≤ 1 / 10 ^ 110 := by
  have hl' : (0 : ℝ) < l := by exact_mod_cast hl
  have h1' : (l : ℝ) ^ 2 / 4 ≤ q - δ := by
    have := (Rat.cast_le (K := ℝ)).2 h1
    push_cast at this
    exact this
  have h2' : |(l : ℝ) ^ 2 - q| ≤ 1 / 10 ^ 110 * l * (3 / 2) - δ := by
    have := (Rat.cast_le (K := ℝ)).2 h2
    push_cast at this
    exact this
  have hc := abs_le.1 hq
  refine sqrt_near hl' (by linarith [hc.1]) ?_
  have e : (l : ℝ) ^ 2 - c = (l ^ 2 - q) + -(c - q) := by ring
  rw [e]
  refine le_trans (abs_add_le _ _) ?_
  rw [abs_neg]
  linarith

/-- the inverse of π -/
theorem pi_inv_near : |1 / Real.pi - ((1 / piQ : ℚ) : ℝ)| ≤ ((1 / 10 ^ 120 : ℚ) : ℝ) := by
  have h := pi_near
  have hp := Real.pi_gt_three
  have hq : (1 : ℝ) ≤ piQ := by
    have := abs_le.1 h
    have h2 : (1 / 10 ^ 120 : ℝ) ≤ 1 := by norm_num
    linarith [this.2]
  push_cast
  have e : 1 / Real.pi - 1 / (piQ : ℝ) = -(Real.pi - piQ) / (Real.pi * piQ) := by
    field_simp
    ring
  have h3 : (1 : ℝ) ≤ Real.pi * piQ := by nlinarith
  rw [e, abs_div, abs_neg, abs_of_pos (show 0 < Real.pi * piQ by linarith), div_le_iff₀ (by linarith)]
  have h4 := mul_le_mul_of_nonneg_left h3 (show (0 : ℝ) ≤ 1 / 10 ^ 120 by positivity)
  linarith

theorem lit_near (c : Const) : |(c.lit : ℝ) - c.real| ≤ 1 / 10 ^ 110 := by
  cases c
  case pi => have := pi_mul (k := 1) (l := Const.pi.lit) (by norm_num) (by decide +kernel); simpa [Const.real] using this
  case halfPi =>
    have := pi_mul (k := 1 / 2) (l := Const.halfPi.lit) (by norm_num) (by decide +kernel)
    rwa [show (((1 / 2 : ℚ) : ℝ)) * Real.pi = Const.halfPi.real by simp only [Const.real]; push_cast; ring] at this
  case thirdPi =>
    have := pi_mul (k := 1 / 3) (l := Const.thirdPi.lit) (by norm_num) (by decide +kernel)
    rwa [show (((1 / 3 : ℚ) : ℝ)) * Real.pi = Const.thirdPi.real by simp only [Const.real]; push_cast; ring] at this
  case twoThirdsPi =>
    have := pi_mul (k := 2 / 3) (l := Const.twoThirdsPi.lit) (by norm_num) (by decide +kernel)
    rwa [show (((2 / 3 : ℚ) : ℝ)) * Real.pi = Const.twoThirdsPi.real by simp only [Const.real]; push_cast; ring] at this
  case quarterPi =>
    have := pi_mul (k := 1 / 4) (l := Const.quarterPi.lit) (by norm_num) (by decide +kernel)
    rwa [show (((1 / 4 : ℚ) : ℝ)) * Real.pi = Const.quarterPi.real by simp only [Const.real]; push_cast; ring] at this
  case threeQuartersPi =>
    have := pi_mul (k := 3 / 4) (l := Const.threeQuartersPi.lit) (by norm_num) (by decide +kernel)
    rwa [show (((3 / 4 : ℚ) : ℝ)) * Real.pi = Const.threeQuartersPi.real by simp only [Const.real]; push_cast; ring] at this
  case twoPi =>
    have := pi_mul (k := 2) (l := Const.twoPi.lit) (by norm_num) (by decide +kernel)
    rwa [show (((2 : ℚ) : ℝ)) * Real.pi = Const.twoPi.real by simp only [Const.real]; push_cast; ring] at this
  case fourPi =>
    have := pi_mul (k := 4) (l := Const.fourPi.lit) (by norm_num) (by decide +kernel)
    rwa [show (((4 : ℚ) : ℝ)) * Real.pi = Const.fourPi.real by simp only [Const.real]; push_cast; ring] at this
  case twoDivPi =>
    have := pi_div (k := 2) (l := Const.twoDivPi.lit) (by decide +kernel) (by decide +kernel)
    rwa [show (((2 : ℚ) : ℝ)) / Real.pi = Const.twoDivPi.real by simp only [Const.real]; push_cast; ring] at this
  case rootTwoDivPi =>
    refine root_near (q := 2 * (1 / piQ)) (δ := 2 / 10 ^ 120) ?_ (by decide +kernel) (by decide +kernel) (by decide +kernel)
    have h := pi_inv_near
    have e : 2 / Real.pi - ((2 * (1 / piQ) : ℚ) : ℝ) = 2 * (1 / Real.pi - ((1 / piQ : ℚ) : ℝ)) := by push_cast; ring
    rw [e, abs_mul, abs_of_pos (by norm_num : (0 : ℝ) < 2)]
    push_cast at h ⊢
    linarith
  case rootPi =>
    refine root_near (q := piQ) (δ := 1 / 10 ^ 120) ?_ (by decide +kernel) (by decide +kernel) (by decide +kernel)
    have h := pi_near
    push_cast
    exact h
  case oneDivRootPi =>
    have := root_near (l := Const.oneDivRootPi.lit) pi_inv_near (by decide +kernel) (by decide +kernel) (by decide +kernel)
    rwa [Real.sqrt_div' _ (le_of_lt Real.pi_pos), Real.sqrt_one] at this
  case rootOneDivPi => exact root_near pi_inv_near (by decide +kernel) (by decide +kernel) (by decide +kernel)
  case twoDivRootPi =>
    have := root_near (c := 4 / Real.pi) (l := Const.twoDivRootPi.lit) (q := 4 * (1 / piQ)) (δ := 4 / 10 ^ 120) (by
      have h := pi_inv_near
      have e : 4 / Real.pi - ((4 * (1 / piQ) : ℚ) : ℝ) = 4 * (1 / Real.pi - ((1 / piQ : ℚ) : ℝ)) := by push_cast; ring
      rw [e, abs_mul, abs_of_pos (by norm_num : (0 : ℝ) < 4)]
      push_cast at h ⊢
      linarith) (by decide +kernel) (by decide +kernel) (by decide +kernel)
    rwa [Real.sqrt_div' _ (le_of_lt Real.pi_pos), show √(4 : ℝ) = 2 by
      rw [show (4 : ℝ) = 2 ^ 2 by norm_num, Real.sqrt_sq (by norm_num)]] at this
  case half => exact via (q := 1 / 2) (δ := 0) (by simp [Const.real]) (by decide +kernel)
  case quarter => exact via (q := 1 / 4) (δ := 0) (by simp [Const.real]) (by decide +kernel)
  case third => exact via (q := 1 / 3) (δ := 0) (by simp [Const.real]) (by decide +kernel)
  case twoThirds => exact via (q := 2 / 3) (δ := 0) (by simp [Const.real]) (by decide +kernel)
  case rootTwo => exact root_near (q := 2) (δ := 0) (by simp) (by decide +kernel) (by decide +kernel) (by decide +kernel)
  case rootThree => exact root_near (q := 3) (δ := 0) (by simp) (by decide +kernel) (by decide +kernel) (by decide +kernel)
  case halfRootTwo =>
    have := root_near (c := 1 / 2) (l := Const.halfRootTwo.lit) (q := 1 / 2) (δ := 0) (by simp) (by decide +kernel)
      (by decide +kernel) (by decide +kernel)
    rwa [show √(1 / 2 : ℝ) = √2 / 2 by
      rw [show (1 / 2 : ℝ) = 2 / 4 by norm_num, Real.sqrt_div' _ (by norm_num), show √(4 : ℝ) = 2 by
        rw [show (4 : ℝ) = 2 ^ 2 by norm_num, Real.sqrt_sq (by norm_num)]]] at this
  case e => exact via (q := eQ 80) (δ := 1 / 10 ^ 115) (by have := e_near; push_cast; exact this) (by decide +kernel)
  case lnTen => exact via (q := ln10Q) (δ := 1 / 10 ^ 114) (by have := ln10_near; push_cast; exact this) (by decide +kernel)
  case lnTwo => exact via (q := ln2Q) (δ := 1 / 10 ^ 115) (by have := ln2_near; push_cast; exact this) (by decide +kernel)
  case phi =>
    have := root_near (c := 5 / 4) (l := Const.phi.lit - 1 / 2) (q := 5 / 4) (δ := 0) (by simp) (by decide +kernel)
      (by decide +kernel) (by decide +kernel)
    rw [show √(5 / 4 : ℝ) = √5 / 2 by
      rw [Real.sqrt_div' _ (by norm_num), show √(4 : ℝ) = 2 by
        rw [show (4 : ℝ) = 2 ^ 2 by norm_num, Real.sqrt_sq (by norm_num)]]] at this
    have e : (Const.phi.lit : ℝ) - Const.phi.real = ((Const.phi.lit - 1 / 2 : ℚ) : ℝ) - √5 / 2 := by
      simp only [Const.real]; push_cast; ring
    rw [e]
    exact this

theorem lit_range (c : Const) : 1 / 4 ≤ c.lit ∧ c.lit ≤ 13 := by cases c <;> decide +kernel

end Sprout.MathConst
