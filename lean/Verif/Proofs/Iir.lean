import Verif.Model.Iir
import Verif.Spec.Iir
import Mathlib.Analysis.SpecialFunctions.Trigonometric.Bounds

/-!
# Lemmas about the second order filters
-/

namespace Sprout.Iir

open Analog

/-- the transfer function of the coefficients -/
noncomputable def Coef.H (c : Coef ℝ) (z : ℂ) : ℂ := transfer c.a0 c.a1 c.a2 c.b0 c.b1 c.b2 z

theorem circle_inv (f : ℝ) :
    (circle f)⁻¹ = ((Real.cos (Real.pi * f) : ℂ) - Complex.I * (Real.sin (Real.pi * f) : ℂ)) ^ 2 := by
  unfold circle
  rw [← Complex.exp_neg, show -(2 * (Real.pi : ℂ) * f * Complex.I) = 2 * ((-(Real.pi * f : ℝ) : ℂ) * Complex.I) by push_cast; ring,
    show (2 : ℂ) * ((-(Real.pi * f : ℝ) : ℂ) * Complex.I) = ((2 : ℕ) : ℂ) * ((-(Real.pi * f : ℝ) : ℂ) * Complex.I) by norm_num,
    Complex.exp_nat_mul, Complex.exp_mul_I, Complex.cos_neg, Complex.sin_neg, ← Complex.ofReal_cos, ← Complex.ofReal_sin]
  ring

theorem unit_ne (c s : ℝ) (h : c ^ 2 + s ^ 2 = 1) : ((c : ℂ) - Complex.I * s) ≠ 0 := by
  intro h0
  have hr := congrArg Complex.re h0
  have hi := congrArg Complex.im h0
  simp at hr hi
  rw [hr, hi] at h
  norm_num at h

theorem bilinear (f : ℝ) (hc : Real.cos (Real.pi * f) ≠ 0) :
    1 + (circle f)⁻¹ ≠ 0 ∧ 1 - (circle f)⁻¹ = Complex.I * (Real.tan (Real.pi * f) : ℂ) * (1 + (circle f)⁻¹) := by
  rw [circle_inv, Real.tan_eq_sin_div_cos]
  generalize hcc : Real.cos (Real.pi * f) = c at *
  generalize hss : Real.sin (Real.pi * f) = s at *
  have h1 : c ^ 2 + s ^ 2 = 1 := by rw [← hcc, ← hss]; exact Real.cos_sq_add_sin_sq _
  have h1' : (c : ℂ) ^ 2 + (s : ℂ) ^ 2 = 1 := by exact_mod_cast h1
  have hc' : (c : ℂ) ≠ 0 := by exact_mod_cast hc
  have hu := unit_ne c s h1
  have e1 : 1 + ((c : ℂ) - Complex.I * s) ^ 2 = 2 * c * (c - Complex.I * s) := by
    linear_combination (-1 : ℂ) * h1' + (s : ℂ) ^ 2 * Complex.I_sq
  have e2 : 1 - ((c : ℂ) - Complex.I * s) ^ 2 = 2 * (Complex.I * s) * (c - Complex.I * s) := by
    linear_combination (-1 : ℂ) * h1' + (s : ℂ) ^ 2 * Complex.I_sq
  refine ⟨?_, ?_⟩
  · rw [e1]
    exact mul_ne_zero (mul_ne_zero two_ne_zero hc') hu
  · rw [e1, e2]
    push_cast
    field_simp

/-- the bilinear transform of a rational function of degree two -/
theorem transfer_bilinear (d0 d1 d2 n0 n1 n2 : ℝ) (hy : d2 + d1 + d0 ≠ 0) (f : ℝ) (hc : Real.cos (Real.pi * f) ≠ 0) :
    transfer 1 ((2 * d0 - 2 * d2) / (d2 + d1 + d0)) ((d2 - d1 + d0) / (d2 + d1 + d0)) ((n2 + n1 + n0) / (d2 + d1 + d0))
      ((2 * n0 - 2 * n2) / (d2 + d1 + d0)) ((n2 - n1 + n0) / (d2 + d1 + d0)) (circle f)
    = (n2 * (Complex.I * (Real.tan (Real.pi * f) : ℂ)) ^ 2 + n1 * (Complex.I * (Real.tan (Real.pi * f) : ℂ)) + n0)
      / (d2 * (Complex.I * (Real.tan (Real.pi * f) : ℂ)) ^ 2 + d1 * (Complex.I * (Real.tan (Real.pi * f) : ℂ)) + d0) := by
  obtain ⟨h1, h2⟩ := bilinear f hc
  unfold transfer
  generalize Complex.I * (Real.tan (Real.pi * f) : ℂ) = s at *
  generalize (circle f)⁻¹ = w at *
  have hy' : ((d2 : ℂ) + d1 + d0) ≠ 0 := by exact_mod_cast hy
  push_cast
  set y : ℂ := (d2 : ℂ) + d1 + d0 with hyd
  have eN : ∀ m2 m1 m0 : ℂ, (m2 + m1 + m0) / y + (2 * m0 - 2 * m2) / y * w + (m2 - m1 + m0) / y * w ^ 2
      = ((1 + w) ^ 2 / y) * (m2 * s ^ 2 + m1 * s + m0) := by
    intro m2 m1 m0
    have : (m2 + m1 + m0) + (2 * m0 - 2 * m2) * w + (m2 - m1 + m0) * w ^ 2 = (1 + w) ^ 2 * (m2 * s ^ 2 + m1 * s + m0) := by
      linear_combination (m2 * (1 - w) + m2 * s * (1 + w) + m1 * (1 + w)) * h2
    rw [div_mul_eq_mul_div ((1 + w) ^ 2), ← this]
    ring
  have e1 : (1 : ℂ) = ((d2 : ℂ) + d1 + d0) / y := by rw [hyd, div_self]; exact hy'
  rw [e1, eN, eN, mul_div_mul_left]
  exact div_ne_zero (pow_ne_zero _ h1) hy'

theorem iirFc_eq {fc : ℝ} (hc : Real.cos (Real.pi * fc) ≠ 0) : iirFc fc = some (Real.tan (Real.pi * fc) / (2 * Real.pi)) := by
  simp [iirFc, hc]

theorem dv_eq {x y : ℝ} (h : y ≠ 0) : dv x y = some (x / y) := by simp [dv, h]

theorem two_pi_mul (t : ℝ) : 2 * Real.pi * (t / (2 * Real.pi)) = t := by
  have := Real.pi_ne_zero
  field_simp

/-- what is known of a frequency below half of the sampling rate -/
theorem freq {fc : ℝ} (h0 : 0 < fc) (h1 : fc < 1 / 2) : 0 < Real.cos (Real.pi * fc) ∧ 0 < Real.tan (Real.pi * fc) := by
  have hp := Real.pi_pos
  have h2 : Real.pi * fc < Real.pi / 2 := by nlinarith
  have h3 : 0 < Real.pi * fc := mul_pos hp h0
  exact ⟨Real.cos_pos_of_mem_Ioo ⟨by linarith, h2⟩, Real.tan_pos_of_pos_of_lt_pi_div_two h3 h2⟩

theorem freq_ne {f : ℝ} (h0 : 0 ≤ f) (h1 : f < 1 / 2) : Real.cos (Real.pi * f) ≠ 0 := by
  have hp := Real.pi_pos
  have h2 : Real.pi * f < Real.pi / 2 := by nlinarith
  have h3 : 0 ≤ Real.pi * f := mul_nonneg hp.le h0
  exact (Real.cos_pos_of_mem_Ioo ⟨by linarith, h2⟩).ne'

theorem circle_zero : circle 0 = 1 := by simp [circle]

theorem circle_half : circle (1 / 2) = -1 := by
  unfold circle
  rw [show 2 * (Real.pi : ℂ) * ((1 / 2 : ℝ) : ℂ) * Complex.I = Real.pi * Complex.I by push_cast; ring, Complex.exp_pi_mul_I]

/-- the roots of a real polynomial of degree two inside Jury's triangle are inside the unit circle -/
theorem jury (a1 a2 : ℝ) (h1 : a2 < 1) (h2 : 0 < 1 + a1 + a2) (h3 : 0 < 1 - a1 + a2) (z : ℂ)
    (hz : z ^ 2 + a1 * z + a2 = 0) : ‖z‖ < 1 := by
  have hr := congrArg Complex.re hz
  have hi := congrArg Complex.im hz
  simp [pow_two] at hr hi
  obtain ⟨p, q⟩ := z
  simp at hr hi
  have hn : ‖(⟨p, q⟩ : ℂ)‖ ^ 2 = p ^ 2 + q ^ 2 := by
    rw [← Complex.normSq_eq_norm_sq, Complex.normSq_apply]; ring
  have key : p ^ 2 + q ^ 2 < 1 := by
    by_cases hq : q = 0
    · subst hq
      have hp : p * p + a1 * p + a2 = 0 := by linarith
      by_contra hge
      push Not at hge
      rcases le_or_gt 1 p with h | h
      · nlinarith
      · rcases le_or_gt p (-1) with h' | h'
        · nlinarith
        · nlinarith
    · have : p = -a1 / 2 := by
        have : q * (2 * p + a1) = 0 := by linarith
        rcases mul_eq_zero.1 this with h | h
        · exact absurd h hq
        · linarith
      subst this
      nlinarith
  rw [← hn] at key
  nlinarith [norm_nonneg (⟨p, q⟩ : ℂ)]

theorem y_pos {t q : ℝ} (ht : 0 < t) (hq : 0 < q) : 0 < 1 + t / q + t * t := by
  have := div_pos ht hq
  positivity

theorem proto_scale (t q u : ℝ) (ht : 0 < t) (n0 n1 n2 m0 m1 m2 : ℂ) (e0 : n0 = t ^ 2 * m0) (e1 : n1 = t * m1) (e2 : n2 = m2) :
    (n2 * (Complex.I * u) ^ 2 + n1 * (Complex.I * u) + n0)
      / ((1 : ℝ) * (Complex.I * (u : ℂ)) ^ 2 + ((t / q : ℝ) : ℂ) * (Complex.I * u) + ((t * t : ℝ) : ℂ))
    = (m2 * (Complex.I * ((u / t : ℝ) : ℂ)) ^ 2 + m1 * (Complex.I * ((u / t : ℝ) : ℂ)) + m0) / den q (Complex.I * ((u / t : ℝ) : ℂ)) := by
  have ht' : (t : ℂ) ≠ 0 := by exact_mod_cast ht.ne'
  have hn : (n2 * (Complex.I * u) ^ 2 + n1 * (Complex.I * u) + n0)
      = (t : ℂ) ^ 2 * (m2 * (Complex.I * ((u / t : ℝ) : ℂ)) ^ 2 + m1 * (Complex.I * ((u / t : ℝ) : ℂ)) + m0) := by
    subst e0 e1 e2; push_cast; field_simp
  have hd : ((1 : ℝ) * (Complex.I * (u : ℂ)) ^ 2 + ((t / q : ℝ) : ℂ) * (Complex.I * u) + ((t * t : ℝ) : ℂ))
      = (t : ℂ) ^ 2 * den q (Complex.I * ((u / t : ℝ) : ℂ)) := by
    unfold den; push_cast; field_simp
  rw [hn, hd, mul_div_mul_left _ _ (pow_ne_zero _ ht')]

theorem lpf_coef {fc q : ℝ} (h0 : 0 < fc) (h1 : fc < 1 / 2) (hq : 0 < q) (t y : ℝ) (et : Real.tan (Real.pi * fc) = t)
    (ey : 1 + t / q + t * t = y) :
    lpf fc q = some ⟨1, (2 * (t * t) - 2) / y, (1 - t / q + t * t) / y, t * t / y, 2 * (t * t) / y, t * t / y⟩ := by
  have ht := (freq h0 h1).2
  have hy : y ≠ 0 := by rw [← ey]; exact (y_pos (et ▸ ht) hq).ne'
  subst et
  simp only [lpf, iirFc_eq (freq h0 h1).1.ne', two_pi_mul, dv_eq hq.ne', Option.bind_eq_bind, Option.bind_some, ey]
  simp [lpfImpl2, dv_eq hy]

theorem hpf_coef {fc q : ℝ} (h0 : 0 < fc) (h1 : fc < 1 / 2) (hq : 0 < q) (t y : ℝ) (et : Real.tan (Real.pi * fc) = t)
    (ey : 1 + t / q + t * t = y) :
    hpf fc q = some ⟨1, (2 * (t * t) - 2) / y, (1 - t / q + t * t) / y, 1 / y, -2 / y, 1 / y⟩ := by
  have ht := (freq h0 h1).2
  have hy : y ≠ 0 := by rw [← ey]; exact (y_pos (et ▸ ht) hq).ne'
  subst et
  simp only [hpf, iirFc_eq (freq h0 h1).1.ne', two_pi_mul, dv_eq hq.ne', Option.bind_eq_bind, Option.bind_some, ey]
  simp [hpfImpl2, dv_eq hy]

theorem resonator_coef {fc q : ℝ} (h0 : 0 < fc) (h1 : fc < 1 / 2) (hq : 0 < q) (t y : ℝ) (et : Real.tan (Real.pi * fc) = t)
    (ey : 1 + t / q + t * t = y) :
    resonator fc q = some ⟨1, (2 * (t * t) - 2) / y, (1 - t / q + t * t) / y, t / q / y, 0, -(t / q) / y⟩ := by
  have ht := (freq h0 h1).2
  have hy : y ≠ 0 := by rw [← ey]; exact (y_pos (et ▸ ht) hq).ne'
  subst et
  simp only [resonator, iirFc_eq (freq h0 h1).1.ne', two_pi_mul, dv_eq hq.ne', Option.bind_eq_bind, Option.bind_some, ey]
  simp [resonatorImpl2, dv_eq hy]

theorem notch_coef {fc q : ℝ} (h0 : 0 < fc) (h1 : fc < 1 / 2) (hq : 0 < q) (t y : ℝ) (et : Real.tan (Real.pi * fc) = t)
    (ey : 1 + t / q + t * t = y) :
    notch fc q = some ⟨1, (2 * (t * t) - 2) / y, (1 - t / q + t * t) / y, (t * t + 1) / y, (2 * (t * t) + 2) / y, (t * t + 1) / y⟩ := by
  have ht := (freq h0 h1).2
  have hy : y ≠ 0 := by rw [← ey]; exact (y_pos (et ▸ ht) hq).ne'
  subst et
  simp only [notch, iirFc_eq (freq h0 h1).1.ne', two_pi_mul, dv_eq hq.ne', Option.bind_eq_bind, Option.bind_some, ey]
  simp [notchImpl2, dv_eq hy]

theorem lowShelving_coef {fc q : ℝ} (g : ℝ) (h0 : 0 < fc) (h1 : fc < 1 / 2) (hq : 0 < q) (t y : ℝ) (et : Real.tan (Real.pi * fc) = t)
    (ey : 1 + t / q + t * t = y) :
    lowShelving fc q g = some ⟨1, (2 * (t * t) - 2) / y, (1 - t / q + t * t) / y, (1 + √(g + 1) * t / q + (g + 1) * (t * t)) / y,
      (2 * (g + 1) * (t * t) - 2) / y, (1 + √(g + 1) * t / q + (g + 1) * (t * t)) / y⟩ := by
  have ht := (freq h0 h1).2
  have hy : y ≠ 0 := by rw [← ey]; exact (y_pos (et ▸ ht) hq).ne'
  subst et
  simp only [lowShelving, iirG, iirFc_eq (freq h0 h1).1.ne', two_pi_mul, dv_eq hq.ne', Option.bind_eq_bind, Option.bind_some, ey]
  simp [lowShelvingImpl2, dv_eq hy]

theorem highShelving_coef {fc q : ℝ} (g : ℝ) (h0 : 0 < fc) (h1 : fc < 1 / 2) (hq : 0 < q) (t y : ℝ) (et : Real.tan (Real.pi * fc) = t)
    (ey : 1 + t / q + t * t = y) :
    highShelving fc q g = some ⟨1, (2 * (t * t) - 2) / y, (1 - t / q + t * t) / y, (g + 1 + √(g + 1) * t / q + t * t) / y,
      (2 * (t * t) - 2 * (g + 1)) / y, (g + 1 + √(g + 1) * t / q + t * t) / y⟩ := by
  have ht := (freq h0 h1).2
  have hy : y ≠ 0 := by rw [← ey]; exact (y_pos (et ▸ ht) hq).ne'
  subst et
  simp only [highShelving, iirG, iirFc_eq (freq h0 h1).1.ne', two_pi_mul, dv_eq hq.ne', Option.bind_eq_bind, Option.bind_some, ey]
  simp [highShelvingImpl2, dv_eq hy]

theorem peaking_coef {fc q : ℝ} (g : ℝ) (h0 : 0 < fc) (h1 : fc < 1 / 2) (hq : 0 < q) (t y : ℝ) (et : Real.tan (Real.pi * fc) = t)
    (ey : 1 + t / q + t * t = y) :
    peaking fc q g = some ⟨1, (2 * (t * t) - 2) / y, (1 - t / q + t * t) / y, (1 + t / q + (g + 1) + t * t) / y,
      (2 * (t * t) - 2) / y, (1 + t / q + (g + 1) + t * t) / y⟩ := by
  have ht := (freq h0 h1).2
  have hy : y ≠ 0 := by rw [← ey]; exact (y_pos (et ▸ ht) hq).ne'
  subst et
  simp only [peaking, iirG, iirFc_eq (freq h0 h1).1.ne', two_pi_mul, dv_eq hq.ne', Option.bind_eq_bind, Option.bind_some, ey]
  simp [peakingImpl2, dv_eq hy]

theorem band_x2 (t1 t2 : ℝ) : 4 * Real.pi * (t1 / (2 * Real.pi)) * (t2 / (2 * Real.pi)) = t1 * t2 / Real.pi := by
  have := Real.pi_ne_zero
  field_simp
  ring

theorem band_x (t1 t2 : ℝ) : 2 * Real.pi * (t2 / (2 * Real.pi) - t1 / (2 * Real.pi)) = t2 - t1 := by
  have := Real.pi_ne_zero
  field_simp


theorem bpf_coef {fc1 fc2 : ℝ} (h0 : 0 < fc1) (h01 : fc1 < 1 / 2) (h1 : 0 < fc2) (h12 : fc2 < 1 / 2) (t1 t2 y : ℝ)
    (et1 : Real.tan (Real.pi * fc1) = t1) (et2 : Real.tan (Real.pi * fc2) = t2) (ey : 1 + (t2 - t1) + t1 * t2 / Real.pi = y) (hy : y ≠ 0) :
    bpf fc1 fc2 = some ⟨1, (2 * (t1 * t2 / Real.pi) - 2) / y, (1 - (t2 - t1) + t1 * t2 / Real.pi) / y, (t2 - t1) / y, 0,
      -(t2 - t1) / y⟩ := by
  subst et1 et2
  simp only [bpf, bpfImpl, iirFc_eq (freq h0 h01).1.ne', iirFc_eq (freq h1 h12).1.ne', Option.bind_eq_bind, Option.bind_some,
    band_x, band_x2, ey]
  simp [bpfImpl2, dv_eq hy]

theorem bef_coef {fc1 fc2 : ℝ} (h0 : 0 < fc1) (h01 : fc1 < 1 / 2) (h1 : 0 < fc2) (h12 : fc2 < 1 / 2) (t1 t2 y : ℝ)
    (et1 : Real.tan (Real.pi * fc1) = t1) (et2 : Real.tan (Real.pi * fc2) = t2) (ey : 1 + (t2 - t1) + t1 * t2 / Real.pi = y) (hy : y ≠ 0) :
    bef fc1 fc2 = some ⟨1, (2 * (t1 * t2 / Real.pi) - 2) / y, (1 - (t2 - t1) + t1 * t2 / Real.pi) / y, (t1 * t2 / Real.pi + 1) / y,
      (2 * (t1 * t2 / Real.pi) - 2) / y, (t1 * t2 / Real.pi + 1) / y⟩ := by
  subst et1 et2
  simp only [bef, befImpl, iirFc_eq (freq h0 h01).1.ne', iirFc_eq (freq h1 h12).1.ne', Option.bind_eq_bind, Option.bind_some,
    band_x, band_x2, ey]
  simp [befImpl2, dv_eq hy]

/-- frequencies in ascending order have tangents in ascending order -/
theorem tan_mono {fc1 fc2 : ℝ} (h0 : 0 < fc1) (h : fc1 < fc2) (h2 : fc2 < 1 / 2) :
    0 < Real.tan (Real.pi * fc1) ∧ Real.tan (Real.pi * fc1) < Real.tan (Real.pi * fc2) := by
  have hp := Real.pi_pos
  refine ⟨(freq h0 (by linarith)).2, Real.tan_lt_tan_of_nonneg_of_lt_pi_div_two (by positivity) (by nlinarith) (by nlinarith)⟩

theorem jury_div {x x2 y : ℝ} (hx : 0 < x) (hx2 : 0 < x2) (ey : 1 + x + x2 = y) (z : ℂ)
    (hz : ((1 : ℝ) : ℂ) * z ^ 2 + (((2 * x2 - 2) / y : ℝ) : ℂ) * z + (((1 - x + x2) / y : ℝ) : ℂ) = 0) : ‖z‖ < 1 := by
  have hy : 0 < y := by linarith
  refine jury ((2 * x2 - 2) / y) ((1 - x + x2) / y) ?_ ?_ ?_ z (by simpa using hz)
  · rw [div_lt_one hy]; linarith
  · have : 1 + (2 * x2 - 2) / y + (1 - x + x2) / y = 4 * x2 / y := by field_simp; rw [← ey]; ring
    rw [this]; positivity
  · have : 1 - (2 * x2 - 2) / y + (1 - x + x2) / y = 4 / y := by field_simp; rw [← ey]; ring
    rw [this]; positivity

end Sprout.Iir
