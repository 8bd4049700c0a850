import Mathlib.Analysis.SpecialFunctions.PolarCoord
import Mathlib.Probability.Distributions.Gaussian.Real
import Mathlib.MeasureTheory.Function.JacobianOneDim

/-! the theorem of Box and Muller -/

namespace Sprout.RandDist.BoxMuller
open MeasureTheory Set ProbabilityTheory
open scoped ENNReal

/-- the pair of values -/
noncomputable def pair (p : ℝ × ℝ) : ℝ × ℝ :=
  (Real.sqrt (-2 * Real.log (1 - p.2)) * Real.cos (2 * Real.pi * p.1), Real.sqrt (-2 * Real.log (1 - p.2)) * Real.sin (2 * Real.pi * p.1))

theorem measurable_pair : Measurable pair := by
  unfold pair
  fun_prop

/-- `θ = 2πu - π` -/
theorem subst_angle (h : ℝ → ℝ≥0∞) :
    ∫⁻ θ in Ioo (-Real.pi) Real.pi, h θ = ∫⁻ u in Ioo (0 : ℝ) 1, ENNReal.ofReal (2 * Real.pi) * h (2 * Real.pi * u - Real.pi) := by
  have hpi := Real.pi_pos
  have himg : (fun u : ℝ => 2 * Real.pi * u - Real.pi) '' Ioo 0 1 = Ioo (-Real.pi) Real.pi := by
    ext θ
    simp only [mem_image, mem_Ioo]
    constructor
    · rintro ⟨u, ⟨h0, h1⟩, rfl⟩
      constructor <;> nlinarith
    · rintro ⟨h0, h1⟩
      refine ⟨(θ + Real.pi) / (2 * Real.pi), ⟨by apply div_pos <;> linarith, ?_⟩, by field_simp; ring⟩
      rw [div_lt_one (by positivity)]
      linarith
  have hd : ∀ u ∈ Ioo (0 : ℝ) 1, HasDerivWithinAt (fun u : ℝ => 2 * Real.pi * u - Real.pi) (2 * Real.pi) (Ioo 0 1) u := by
    intro u _
    have := ((hasDerivAt_id u).const_mul (2 * Real.pi)).sub_const Real.pi
    simpa using this.hasDerivWithinAt
  have hinj : InjOn (fun u : ℝ => 2 * Real.pi * u - Real.pi) (Ioo 0 1) := by
    intro a _ b _ hab
    have : 2 * Real.pi * a = 2 * Real.pi * b := by simpa using hab
    exact mul_left_cancel₀ (by positivity) this
  have key := lintegral_image_eq_lintegral_abs_deriv_mul measurableSet_Ioo hd hinj h
  rw [himg] at key
  rw [key, abs_of_pos (by positivity)]

/-- `v = 1 - exp (-r² / 2)` -/
theorem subst_radius (k : ℝ → ℝ≥0∞) :
    ∫⁻ v in Ioo (0 : ℝ) 1, k v
      = ∫⁻ r in Ioi (0 : ℝ), ENNReal.ofReal (r * Real.exp (-r ^ 2 / 2)) * k (1 - Real.exp (-r ^ 2 / 2)) := by
  have himg : (fun r : ℝ => 1 - Real.exp (-r ^ 2 / 2)) '' Ioi 0 = Ioo 0 1 := by
    ext v
    simp only [mem_image, mem_Ioi, mem_Ioo]
    constructor
    · rintro ⟨r, h0, rfl⟩
      have h1 : Real.exp (-r ^ 2 / 2) < 1 := Real.exp_lt_one_iff.2 (by have := pow_pos h0 2; linarith)
      have h2 := Real.exp_pos (-r ^ 2 / 2)
      constructor <;> linarith
    · rintro ⟨h0, h1⟩
      have hl : Real.log (1 - v) < 0 := Real.log_neg (by linarith) (by linarith)
      refine ⟨Real.sqrt (-2 * Real.log (1 - v)), Real.sqrt_pos.2 (by linarith), ?_⟩
      rw [Real.sq_sqrt (by linarith), show -(-2 * Real.log (1 - v)) / 2 = Real.log (1 - v) by ring, Real.exp_log (by linarith)]
      ring
  have hd : ∀ r ∈ Ioi (0 : ℝ), HasDerivWithinAt (fun r : ℝ => 1 - Real.exp (-r ^ 2 / 2)) (r * Real.exp (-r ^ 2 / 2)) (Ioi 0) r := by
    intro r _
    have h1 : HasDerivAt (fun r : ℝ => -r ^ 2 / 2) (-r) r := by
      have := ((hasDerivAt_pow 2 r).neg).div_const 2
      have e : -((2 : ℕ) * r ^ (2 - 1)) / 2 = -r := by
        norm_num
        ring
      exact e ▸ this
    have h2 := (h1.exp).const_sub 1
    have e : -(Real.exp (-r ^ 2 / 2) * -r) = r * Real.exp (-r ^ 2 / 2) := by ring
    exact (e ▸ h2).hasDerivWithinAt
  have hinj : InjOn (fun r : ℝ => 1 - Real.exp (-r ^ 2 / 2)) (Ioi 0) := by
    intro a ha b hb hab
    have h1 : Real.exp (-a ^ 2 / 2) = Real.exp (-b ^ 2 / 2) := by
      have : 1 - Real.exp (-a ^ 2 / 2) = 1 - Real.exp (-b ^ 2 / 2) := hab
      linarith
    have h2 := Real.exp_injective h1
    have h3 : a ^ 2 = b ^ 2 := by linarith
    exact (pow_left_inj₀ (le_of_lt ha) (le_of_lt hb) (by norm_num)).1 h3
  have key := lintegral_image_eq_lintegral_abs_deriv_mul measurableSet_Ioi hd hinj k
  rw [himg] at key
  rw [key]
  refine setLIntegral_congr_fun measurableSet_Ioi fun r hr => ?_
  have hr' : (0 : ℝ) < r := hr
  show ENNReal.ofReal |_| * _ = _
  rw [abs_of_pos (by positivity)]

/-- the density of two independent standard normal values -/
theorem pdf_mul (x y : ℝ) : gaussianPDF 0 1 x * gaussianPDF 0 1 y
    = ENNReal.ofReal ((2 * Real.pi)⁻¹ * Real.exp (-(x ^ 2 + y ^ 2) / 2)) := by
  rw [gaussianPDF, gaussianPDF, ← ENNReal.ofReal_mul (gaussianPDFReal_nonneg _ _ _)]
  congr 1
  unfold gaussianPDFReal
  rw [sub_zero, sub_zero, NNReal.coe_one, mul_one, mul_one, mul_mul_mul_comm, ← Real.exp_add, ← mul_inv,
    Real.mul_self_sqrt (by positivity)]
  congr 2
  ring

theorem lintegral_pair (f : ℝ × ℝ → ℝ≥0∞) (hf : Measurable f) :
    ∫⁻ p in Ioo (0 : ℝ) 1 ×ˢ Ioo (0 : ℝ) 1, f (pair p) = ∫⁻ p, f p * (gaussianPDF 0 1 p.1 * gaussianPDF 0 1 p.2) := by
  have hpi := Real.pi_pos
  -- the left side in terms of `r` and `u`
  have hl : ∫⁻ p in Ioo (0 : ℝ) 1 ×ˢ Ioo (0 : ℝ) 1, f (pair p)
      = ∫⁻ r in Ioi (0 : ℝ), ENNReal.ofReal (r * Real.exp (-r ^ 2 / 2)) *
          ∫⁻ u in Ioo (0 : ℝ) 1, f (r * Real.cos (2 * Real.pi * u), r * Real.sin (2 * Real.pi * u)) := by
    rw [Measure.volume_eq_prod, ← Measure.prod_restrict, lintegral_prod_symm (fun p => f (pair p)) (hf.comp measurable_pair).aemeasurable, subst_radius]
    refine setLIntegral_congr_fun measurableSet_Ioi fun r hr => ?_
    have hr' : (0 : ℝ) < r := hr
    refine congrArg (ENNReal.ofReal (r * Real.exp (-r ^ 2 / 2)) * ·) ?_
    refine lintegral_congr fun u => ?_
    unfold pair
    dsimp only
    rw [show 1 - (1 - Real.exp (-r ^ 2 / 2)) = Real.exp (-r ^ 2 / 2) by ring, Real.log_exp,
      show -2 * (-r ^ 2 / 2) = r ^ 2 by ring, Real.sqrt_sq hr'.le]
  -- the right side, with both signs changed
  have hneg : ∫⁻ p : ℝ × ℝ, f p * (gaussianPDF 0 1 p.1 * gaussianPDF 0 1 p.2)
      = ∫⁻ p : ℝ × ℝ, f (-p) * (gaussianPDF 0 1 p.1 * gaussianPDF 0 1 p.2) := by
    rw [← lintegral_neg_eq_self]
    refine lintegral_congr fun p => ?_
    rw [pdf_mul, pdf_mul, Prod.fst_neg, Prod.snd_neg, neg_sq, neg_sq]
  rw [hl, hneg, ← lintegral_comp_polarCoord_symm]
  have ht : polarCoord.target = Ioi (0 : ℝ) ×ˢ Ioo (-Real.pi) Real.pi := rfl
  have hm : Measurable fun p : ℝ × ℝ => ENNReal.ofReal p.1 • (f (-(polarCoord.symm p)) *
      (gaussianPDF 0 1 (polarCoord.symm p).1 * gaussianPDF 0 1 (polarCoord.symm p).2)) := by
    have h1 : Measurable fun p : ℝ × ℝ => polarCoord.symm p := continuous_polarCoord_symm.measurable
    have h2 := measurable_gaussianPDF 0 1
    exact (ENNReal.measurable_ofReal.comp measurable_fst).smul
      ((hf.comp h1.neg).mul ((h2.comp (measurable_fst.comp h1)).mul (h2.comp (measurable_snd.comp h1))))
  rw [ht, Measure.volume_eq_prod, ← Measure.prod_restrict, lintegral_prod _ hm.aemeasurable]
  refine setLIntegral_congr_fun measurableSet_Ioi fun r hr => ?_
  have hr' : (0 : ℝ) < r := hr
  dsimp only
  rw [subst_angle, ← lintegral_const_mul']
  · refine lintegral_congr fun u => ?_
    have hc : Real.cos (2 * Real.pi * u - Real.pi) = -Real.cos (2 * Real.pi * u) := Real.cos_sub_pi _
    have hs : Real.sin (2 * Real.pi * u - Real.pi) = -Real.sin (2 * Real.pi * u) := Real.sin_sub_pi _
    rw [pdf_mul, polarCoord_symm_apply]
    dsimp only
    rw [hc, hs, Prod.neg_mk, mul_neg, mul_neg, neg_neg, neg_neg, neg_sq, neg_sq, mul_pow, mul_pow, ← mul_add,
      Real.cos_sq_add_sin_sq, mul_one, smul_eq_mul]
    have e : ENNReal.ofReal (r * Real.exp (-r ^ 2 / 2))
        = ENNReal.ofReal (2 * Real.pi) * (ENNReal.ofReal r * ENNReal.ofReal ((2 * Real.pi)⁻¹ * Real.exp (-r ^ 2 / 2))) := by
      rw [← ENNReal.ofReal_mul hr'.le, ← ENNReal.ofReal_mul (by positivity)]
      congr 1
      field_simp
    rw [e]
    ring
  · exact ENNReal.ofReal_ne_top

/-- two independent uniform values give two independent standard normal values -/
theorem law : (volume.restrict (Ioo (0 : ℝ) 1 ×ˢ Ioo (0 : ℝ) 1)).map pair = (gaussianReal 0 1).prod (gaussianReal 0 1) := by
  rw [gaussianReal_of_var_ne_zero 0 one_ne_zero, prod_withDensity (measurable_gaussianPDF 0 1) (measurable_gaussianPDF 0 1)]
  ext s hs
  rw [Measure.map_apply measurable_pair hs, withDensity_apply _ hs, ← lintegral_indicator_one (measurable_pair hs),
    ← lintegral_indicator hs]
  have key := lintegral_pair (s.indicator 1) (measurable_one.indicator hs)
  have e1 : ∀ p, (pair ⁻¹' s).indicator (1 : ℝ × ℝ → ℝ≥0∞) p = s.indicator 1 (pair p) := fun p => rfl
  simp_rw [e1]
  rw [key]
  refine lintegral_congr fun p => ?_
  by_cases hp : p ∈ s
  · rw [indicator_of_mem hp, indicator_of_mem hp, Pi.one_apply, one_mul]
  · rw [indicator_of_notMem hp, indicator_of_notMem hp, zero_mul]

end Sprout.RandDist.BoxMuller
