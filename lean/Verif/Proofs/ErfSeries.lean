import Verif.Spec.Erf
import Verif.Proofs.ErfPoly
import Mathlib.Analysis.Complex.Exponential
import Mathlib.Analysis.Real.Pi.Bounds
import Mathlib.Analysis.SpecialFunctions.Integrals.Basic
import Mathlib.Analysis.SpecialFunctions.Gaussian.GaussianIntegral

/-! The error function against its series -/

namespace Sprout.ErfPoly

open MeasureTheory

theorem exp_series (s : ℝ) (hs : 0 ≤ s) (N : ℕ) (hN : s / (N + 1) ≤ 1 / 2) :
    |Real.exp (-s) - ∑ n ∈ Finset.range N, (-1) ^ n * s ^ n / n.factorial| ≤ s ^ N / N.factorial * 2 := by
  have h := Complex.exp_bound' (x := ((-s : ℝ) : ℂ)) (n := N) (by
    rw [Complex.norm_real, Real.norm_eq_abs, abs_neg, abs_of_nonneg hs]
    push_cast
    exact hN)
  rw [Complex.norm_real, Real.norm_eq_abs, abs_neg, abs_of_nonneg hs] at h
  have e : Complex.exp ((-s : ℝ) : ℂ) - ∑ m ∈ Finset.range N, ((-s : ℝ) : ℂ) ^ m / m.factorial =
      ((Real.exp (-s) - ∑ n ∈ Finset.range N, (-1) ^ n * s ^ n / n.factorial : ℝ) : ℂ) := by
    push_cast
    congr 1
    apply Finset.sum_congr rfl
    intro n _
    rw [neg_pow]
  rw [e, Complex.norm_real, Real.norm_eq_abs] at h
  exact h

theorem cont_gauss : Continuous fun s : ℝ => Real.exp (-s ^ 2) := by fun_prop

theorem int_series (x : ℝ) (N : ℕ) :
    ∫ s in (0 : ℝ)..x, ∑ n ∈ Finset.range N, (-1) ^ n * (s ^ 2) ^ n / (n.factorial : ℝ) = x * Q N (x * x) := by
  rw [intervalIntegral.integral_finset_sum]
  · rw [Q, Finset.mul_sum]
    apply Finset.sum_congr rfl
    intro n _
    have e : ∀ s : ℝ, (-1) ^ n * (s ^ 2) ^ n / (n.factorial : ℝ) = ((-1) ^ n / (n.factorial : ℝ)) * s ^ (2 * n) := by
      intro s
      rw [← pow_mul]
      ring
    simp_rw [e]
    rw [intervalIntegral.integral_const_mul, integral_pow]
    have h1 : (n.factorial : ℝ) ≠ 0 := by positivity
    have h2 : (2 * (n : ℝ) + 1) ≠ 0 := by positivity
    push_cast
    rw [zero_pow (by omega), sub_zero, mul_pow]
    field_simp
    ring
  · intro n _
    apply Continuous.intervalIntegrable
    fun_prop

theorem gauss_series (x : ℝ) (hx : 0 ≤ x) (N : ℕ) (hN : x ^ 2 / (N + 1) ≤ 1 / 2) :
    |(∫ s in (0 : ℝ)..x, Real.exp (-s ^ 2)) - x * Q N (x * x)| ≤ (x ^ 2) ^ N / N.factorial * 2 * x := by
  rw [← int_series, ← intervalIntegral.integral_sub (cont_gauss.intervalIntegrable _ _)
    (Continuous.intervalIntegrable (by fun_prop) _ _)]
  have := intervalIntegral.norm_integral_le_of_norm_le_const (a := 0) (b := x) (C := (x ^ 2) ^ N / N.factorial * 2)
    (f := fun s => Real.exp (-s ^ 2) - ∑ n ∈ Finset.range N, (-1) ^ n * (s ^ 2) ^ n / (n.factorial : ℝ)) (by
      intro s hs
      rw [Set.uIoc_of_le hx, Set.mem_Ioc] at hs
      have h2 : s ^ 2 ≤ x ^ 2 := pow_le_pow_left₀ hs.1.le hs.2 2
      have h0 : (0 : ℝ) < N + 1 := by positivity
      refine (exp_series (s ^ 2) (by positivity) N ((div_le_div_of_nonneg_right h2 h0.le).trans hN)).trans ?_
      have : (s ^ 2) ^ N ≤ (x ^ 2) ^ N := pow_le_pow_left₀ (by positivity) h2 N
      have hf : (0 : ℝ) < N.factorial := by positivity
      have := div_le_div_of_nonneg_right this hf.le
      linarith)
  rw [sub_zero, abs_of_nonneg hx, Real.norm_eq_abs] at this
  exact this

theorem gauss_nonneg (x : ℝ) (hx : 0 ≤ x) : 0 ≤ ∫ s in (0 : ℝ)..x, Real.exp (-s ^ 2) :=
  intervalIntegral.integral_nonneg hx fun _ _ => (Real.exp_pos _).le

theorem gauss_le (x : ℝ) (hx : 0 ≤ x) : ∫ s in (0 : ℝ)..x, Real.exp (-s ^ 2) ≤ √Real.pi / 2 := by
  have hi : Integrable (fun s : ℝ => Real.exp (-s ^ 2)) := by
    have := integrable_exp_neg_mul_sq (b := 1) one_pos
    simpa using this
  have h : ∫ s in Set.Ioi (0 : ℝ), Real.exp (-s ^ 2) = √Real.pi / 2 := by
    have := integral_gaussian_Ioi 1
    simpa using this
  rw [intervalIntegral.integral_of_le hx, ← h]
  exact setIntegral_mono_set hi.integrableOn (Filter.Eventually.of_forall fun _ => (Real.exp_pos _).le)
    (Set.Ioc_subset_Ioi_self.eventuallyLE)

theorem gauss_mono (x y : ℝ) (h : x ≤ y) : ∫ s in (0 : ℝ)..x, Real.exp (-s ^ 2) ≤ ∫ s in (0 : ℝ)..y, Real.exp (-s ^ 2) := by
  have := intervalIntegral.integral_add_adjacent_intervals (μ := volume) (a := 0) (b := x) (c := y) (f := fun s : ℝ => Real.exp (-s ^ 2))
    (cont_gauss.intervalIntegrable _ _) (cont_gauss.intervalIntegrable _ _)
  have h2 : 0 ≤ ∫ s in x..y, Real.exp (-s ^ 2) := intervalIntegral.integral_nonneg h fun _ _ => (Real.exp_pos _).le
  linarith

theorem le_of_sq_le_sq' {a b : ℝ} (h : a ^ 2 ≤ b ^ 2) (hb : 0 ≤ b) : a ≤ b := by
  by_contra hc
  push Not at hc
  nlinarith

theorem c_bound : |2 / √Real.pi - (cI : ℝ) / 10 ^ 25| ≤ 1 / 10 ^ 20 := by
  have h1 := Real.pi_gt_d20
  have h2 := Real.pi_lt_d20
  have hp : 0 < √Real.pi := Real.sqrt_pos.mpr Real.pi_pos
  have hs : √Real.pi ^ 2 = Real.pi := Real.sq_sqrt Real.pi_pos.le
  have hc : (cI : ℝ) = 11283791670955125738961589 := by norm_num [cI]
  rw [hc, abs_le]
  constructor
  · have : (11283791670955125738961589 / 10 ^ 25 - 1 / 10 ^ 20) * √Real.pi ≤ 2 := by
      refine le_of_sq_le_sq' ?_ (by norm_num)
      rw [mul_pow, hs]
      norm_num at h2 ⊢
      linarith
    have : 11283791670955125738961589 / 10 ^ 25 - 1 / 10 ^ 20 ≤ 2 / √Real.pi := by rwa [le_div_iff₀ hp]
    linarith
  · have : 2 ≤ (11283791670955125738961589 / 10 ^ 25 + 1 / 10 ^ 20) * √Real.pi := by
      refine le_of_sq_le_sq' ?_ (by positivity)
      rw [mul_pow, hs]
      norm_num at h1 ⊢
      linarith
    have : 2 / √Real.pi ≤ 11283791670955125738961589 / 10 ^ 25 + 1 / 10 ^ 20 := by rwa [div_le_iff₀ hp]
    linarith

theorem c_lt : 0 < 2 / √Real.pi ∧ 2 / √Real.pi < 2 := by
  have h := abs_le.mp c_bound
  have hc : (cI : ℝ) = 11283791670955125738961589 := by norm_num [cI]
  rw [hc] at h
  norm_num at h
  constructor <;> linarith [h.1, h.2]

theorem erf_le_one (x : ℝ) (hx : 0 ≤ x) : Spec.erf x ≤ 1 := by
  have hp : 0 < √Real.pi := Real.sqrt_pos.mpr Real.pi_pos
  have := mul_le_mul_of_nonneg_left (gauss_le x hx) c_lt.1.le
  have e : 2 / √Real.pi * (√Real.pi / 2) = 1 := by field_simp
  rw [e] at this
  exact this

theorem erf_mono (x y : ℝ) (h : x ≤ y) : Spec.erf x ≤ Spec.erf y := mul_le_mul_of_nonneg_left (gauss_mono x y h) c_lt.1.le

theorem erf_neg (x : ℝ) : Spec.erf (-x) = -Spec.erf x := by
  unfold Spec.erf
  have : ∫ s in (0 : ℝ)..(-x), Real.exp (-s ^ 2) = -∫ s in (0 : ℝ)..x, Real.exp (-s ^ 2) := by
    have h := intervalIntegral.integral_comp_neg (a := 0) (b := x) (fun s : ℝ => Real.exp (-s ^ 2))
    simp only [neg_sq, neg_zero] at h
    rw [h, intervalIntegral.integral_symm]
  rw [this, mul_neg]

theorem gauss_le_self (x : ℝ) (hx : 0 ≤ x) : ∫ s in (0 : ℝ)..x, Real.exp (-s ^ 2) ≤ x := by
  have := intervalIntegral.integral_mono_on (a := 0) (b := x) (f := fun s : ℝ => Real.exp (-s ^ 2)) (g := fun _ => (1 : ℝ)) (μ := volume) hx
    (cont_gauss.intervalIntegrable _ _) (continuous_const.intervalIntegrable _ _) (by
      intro s _
      rw [Real.exp_le_one_iff]
      have := sq_nonneg s
      linarith)
  simpa using this

/-- a lower bound of the integral -/
theorem gauss_ge (x : ℝ) (hx : 0 ≤ x) : Real.exp (-x ^ 2) * x ≤ ∫ s in (0 : ℝ)..x, Real.exp (-s ^ 2) := by
  have := intervalIntegral.integral_mono_on (a := 0) (b := x) (f := fun _ => Real.exp (-x ^ 2)) (g := fun s : ℝ => Real.exp (-s ^ 2)) (μ := volume) hx
    (continuous_const.intervalIntegrable _ _) (cont_gauss.intervalIntegrable _ _) (by
      intro s hs
      have := pow_le_pow_left₀ hs.1 hs.2 2
      exact Real.exp_le_exp.mpr (by linarith))
  simpa [mul_comm] using this

theorem gauss_lt (x y : ℝ) (h : x < y) : ∫ s in (0 : ℝ)..x, Real.exp (-s ^ 2) < ∫ s in (0 : ℝ)..y, Real.exp (-s ^ 2) := by
  have := intervalIntegral.integral_add_adjacent_intervals (μ := volume) (a := 0) (b := x) (c := y) (f := fun s : ℝ => Real.exp (-s ^ 2))
    (cont_gauss.intervalIntegrable _ _) (cont_gauss.intervalIntegrable _ _)
  have h2 : 0 < ∫ s in x..y, Real.exp (-s ^ 2) :=
    intervalIntegral.intervalIntegral_pos_of_pos (cont_gauss.intervalIntegrable _ _) (fun _ => Real.exp_pos _) h
  linarith

theorem erf_lt_one (x : ℝ) (hx : 0 ≤ x) : Spec.erf x < 1 :=
  lt_of_lt_of_le (mul_lt_mul_of_pos_left (gauss_lt x (x + 1) (by linarith)) c_lt.1) (erf_le_one (x + 1) (by linarith))

/-- the error function from a value close to the series -/
theorem erf_close (x v : ℝ) (hx : 0 ≤ x) (N L : ℕ) (hL : 0 < L) (S ε : ℝ) (hS : x * x ≤ S) (hS1 : 1 ≤ S) (hN : S / (N + 1) ≤ 1 / 2)
    (h : |v - cI / 10 ^ 25 * (x * (ev (tay L N) (x * x) / L))| ≤ ε * x) (h1 : (N : ℝ) * S ^ N / L ≤ 1 / 10 ^ 22)
    (h2 : S ^ N / N.factorial * 2 ≤ 1 / 10 ^ 22) : |v - Spec.erf x| ≤ (ε + 1 / 10 ^ 19) * x := by
  have a1 := tay_ev L N hL (x * x) S (mul_nonneg hx hx) hS hS1
  have hN' : x ^ 2 / (N + 1) ≤ 1 / 2 := by
    refine le_trans (div_le_div_of_nonneg_right ?_ (by positivity)) hN
    rw [pow_two]; exact hS
  have a2 := gauss_series x hx N hN'
  have hf : (0 : ℝ) < N.factorial := by positivity
  have a3 : (x ^ 2) ^ N / N.factorial * 2 ≤ 1 / 10 ^ 22 := by
    refine le_trans ?_ h2
    have : (x ^ 2) ^ N ≤ S ^ N := pow_le_pow_left₀ (by positivity) (by rw [pow_two]; exact hS) N
    have := div_le_div_of_nonneg_right this hf.le
    linarith
  have a4 : |(∫ s in (0 : ℝ)..x, Real.exp (-s ^ 2)) - x * Q N (x * x)| ≤ 1 / 10 ^ 22 * x := by
    refine a2.trans ?_
    exact mul_le_mul_of_nonneg_right a3 hx
  have a5 : |x * (ev (tay L N) (x * x) / L) - x * Q N (x * x)| ≤ 1 / 10 ^ 22 * x := by
    rw [← mul_sub, abs_mul, abs_of_nonneg hx, mul_comm x]
    exact mul_le_mul_of_nonneg_right (a1.trans h1) hx
  have g0 := gauss_nonneg x hx
  have g1 := gauss_le_self x hx
  unfold Spec.erf
  have cb := c_bound
  obtain ⟨c0, c2⟩ := c_lt
  have hc : (cI : ℝ) / 10 ^ 25 < 2 := by norm_num [cI]
  have hc0 : 0 < (cI : ℝ) / 10 ^ 25 := by norm_num [cI]
  generalize hI : (∫ s in (0 : ℝ)..x, Real.exp (-s ^ 2)) = I at *
  generalize x * (ev (tay L N) (x * x) / L) = B at *
  generalize x * Q N (x * x) = A at *
  generalize (cI : ℝ) / 10 ^ 25 = c at *
  generalize 2 / √Real.pi = d at *
  have b1 : |B - I| ≤ 2 / 10 ^ 22 * x := by
    rw [abs_le] at *
    constructor <;> linarith [a4.1, a4.2, a5.1, a5.2]
  have e : v - d * I = (v - c * B) + c * (B - I) - (d - c) * I := by ring
  rw [e]
  have m1 : |c * (B - I)| ≤ 2 * (2 / 10 ^ 22 * x) := by
    rw [abs_mul, abs_of_pos hc0]
    exact mul_le_mul hc.le b1 (abs_nonneg _) (by norm_num)
  have m2 : |(d - c) * I| ≤ 1 / 10 ^ 20 * x := by
    rw [abs_mul, abs_of_nonneg g0]
    exact mul_le_mul cb g1 g0 (by norm_num)
  rw [abs_le] at *
  constructor <;> linarith [h.1, h.2, m1.1, m1.2, m2.1, m2.2]

end Sprout.ErfPoly
