import Verif.Proofs.Iir

/-!
# C140: the second order filters

`transfer`, `circle`, `warp` and the prototypes `lowpass`, … are those of `Verif/Spec/Iir.lean`. Frequencies are in cycles per
sample, `0 < fc < 1/2`; the gain `g` of the equalisers is relative, `G = g + 1`.
-/

namespace Sprout

open Iir Analog

/-- the response of the filter `c` is that of the analog prototype `P` -/
def Realizes (c : Coef ℝ) (P : ℂ → ℂ) (fc : ℝ) : Prop :=
  ∀ f : ℝ, Real.cos (Real.pi * f) ≠ 0 →
    transfer c.a0 c.a1 c.a2 c.b0 c.b1 c.b2 (circle f) = P (Complex.I * (warp fc f : ℂ))

/-- the gain of the filter `c` for the frequency `f` -/
noncomputable def gainAt (c : Coef ℝ) (f : ℝ) : ℝ := ‖transfer c.a0 c.a1 c.a2 c.b0 c.b1 c.b2 (circle f)‖

/-- all poles are inside the unit circle -/
def StableFilter (c : Coef ℝ) : Prop := ∀ z : ℂ, (c.a0 : ℂ) * z ^ 2 + c.a1 * z + c.a2 = 0 → ‖z‖ < 1

/-- `iir_lpf` is the low-pass filter of second order: the response is that of the prototype, the filter is stable -/
theorem C140_lpf (fc q : ℝ) (h0 : 0 < fc) (h1 : fc < 1 / 2) (hq : 0 < q) :
    ∃ c, lpf fc q = some c ∧ Realizes c (lowpass q) fc ∧ StableFilter c := by
  obtain ⟨_, ht⟩ := freq h0 h1
  generalize et : Real.tan (Real.pi * fc) = t at ht
  have hy := y_pos ht hq
  refine ⟨_, lpf_coef h0 h1 hq t _ et rfl, ?_, ?_⟩
  · intro f hf
    have h := transfer_bilinear (t * t) (t / q) 1 (t * t) 0 0 hy.ne' f hf
    simp only [warp, et, lowpass]
    rw [proto_scale t q _ ht _ _ _ 1 0 0 (by push_cast; ring) (by simp) (by simp)] at h
    simpa using h
  · intro z hz
    exact jury_div (div_pos ht hq) (mul_pos ht ht) rfl z hz

/-- `iir_hpf` is the high-pass filter of second order -/
theorem C140_hpf (fc q : ℝ) (h0 : 0 < fc) (h1 : fc < 1 / 2) (hq : 0 < q) :
    ∃ c, hpf fc q = some c ∧ Realizes c (highpass q) fc ∧ StableFilter c := by
  obtain ⟨_, ht⟩ := freq h0 h1
  generalize et : Real.tan (Real.pi * fc) = t at ht
  have hy := y_pos ht hq
  refine ⟨_, hpf_coef h0 h1 hq t _ et rfl, ?_, ?_⟩
  · intro f hf
    have h := transfer_bilinear (t * t) (t / q) 1 0 0 1 hy.ne' f hf
    simp only [warp, et, highpass]
    rw [proto_scale t q _ ht _ _ _ 0 0 1 (by push_cast; ring) (by simp) (by simp)] at h
    simpa using h
  · intro z hz
    exact jury_div (div_pos ht hq) (mul_pos ht ht) rfl z hz

/-- `iir_resonator` is the band-pass filter of second order around `fc` -/
theorem C140_resonator (fc q : ℝ) (h0 : 0 < fc) (h1 : fc < 1 / 2) (hq : 0 < q) :
    ∃ c, resonator fc q = some c ∧ Realizes c (bandpass q) fc ∧ StableFilter c := by
  obtain ⟨_, ht⟩ := freq h0 h1
  generalize et : Real.tan (Real.pi * fc) = t at ht
  have hy := y_pos ht hq
  refine ⟨_, resonator_coef h0 h1 hq t _ et rfl, ?_, ?_⟩
  · intro f hf
    have h := transfer_bilinear (t * t) (t / q) 1 0 (t / q) 0 hy.ne' f hf
    simp only [warp, et, bandpass]
    rw [proto_scale t q _ ht _ _ _ 0 (1 / q) 0 (by push_cast; ring) (by push_cast; ring) (by simp)] at h
    rw [show ∀ s : ℂ, s / q = 0 * s ^ 2 + 1 / q * s + 0 by intro s; ring, ← h]
    simp
  · intro z hz
    exact jury_div (div_pos ht hq) (mul_pos ht ht) rfl z hz

theorem transfer_one (a1 a2 b0 b1 b2 : ℝ) : transfer 1 a1 a2 b0 b1 b2 1 = (((b0 + b1 + b2) / (1 + a1 + a2) : ℝ) : ℂ) := by
  unfold transfer; push_cast; simp

theorem transfer_neg (a1 a2 b0 b1 b2 : ℝ) : transfer 1 a1 a2 b0 b1 b2 (-1) = (((b0 - b1 + b2) / (1 - a1 + a2) : ℝ) : ℂ) := by
  unfold transfer; push_cast; simp [inv_neg, sub_eq_add_neg]

theorem warp_zero (fc : ℝ) : warp fc 0 = 0 := by simp [warp]

theorem warp_self {fc : ℝ} (h0 : 0 < fc) (h1 : fc < 1 / 2) : warp fc fc = 1 := by
  unfold warp; exact div_self (freq h0 h1).2.ne'

theorem den_I (q : ℝ) : den q Complex.I = Complex.I / q := by
  unfold den; rw [Complex.I_sq]; ring

/-- the gains of the low-pass filter: 1 for a constant signal, `q` at `fc`, 0 at half of the sampling rate -/
theorem C140_lpf_gain (fc q : ℝ) (h0 : 0 < fc) (h1 : fc < 1 / 2) (hq : 0 < q) :
    ∃ c, lpf fc q = some c ∧ gainAt c 0 = 1 ∧ gainAt c fc = q ∧ gainAt c (1 / 2) = 0 := by
  obtain ⟨c, hc, hr, _⟩ := C140_lpf fc q h0 h1 hq
  refine ⟨c, hc, ?_, ?_, ?_⟩
  · rw [gainAt, hr 0 (by simp), warp_zero]; simp [lowpass, den]
  · rw [gainAt, hr fc (freq h0 h1).1.ne', warp_self h0 h1]
    simp [lowpass, den_I, abs_of_pos hq]
  · rw [lpf_coef h0 h1 hq _ _ rfl rfl] at hc
    injection hc with hc
    subst hc
    rw [gainAt, circle_half, transfer_neg]
    rw [show ∀ t y : ℝ, t * t / y - 2 * (t * t) / y + t * t / y = 0 by intro t y; ring]
    simp

/-- the gains of the high-pass filter: 0 for a constant signal, `q` at `fc`, 1 at half of the sampling rate -/
theorem C140_hpf_gain (fc q : ℝ) (h0 : 0 < fc) (h1 : fc < 1 / 2) (hq : 0 < q) :
    ∃ c, hpf fc q = some c ∧ gainAt c 0 = 0 ∧ gainAt c fc = q ∧ gainAt c (1 / 2) = 1 := by
  obtain ⟨c, hc, hr, _⟩ := C140_hpf fc q h0 h1 hq
  refine ⟨c, hc, ?_, ?_, ?_⟩
  · rw [gainAt, hr 0 (by simp), warp_zero]; simp [highpass, den]
  · rw [gainAt, hr fc (freq h0 h1).1.ne', warp_self h0 h1]
    simp [highpass, den_I, abs_of_pos hq]
  · rw [hpf_coef h0 h1 hq _ _ rfl rfl] at hc
    injection hc with hc
    subst hc
    have hy := y_pos (freq h0 h1).2 hq
    rw [gainAt, circle_half, transfer_neg]
    generalize Real.tan (Real.pi * fc) = t at *
    have e : (1 / (1 + t / q + t * t) - -2 / (1 + t / q + t * t) + 1 / (1 + t / q + t * t))
        / (1 - (2 * (t * t) - 2) / (1 + t / q + t * t) + (1 - t / q + t * t) / (1 + t / q + t * t)) = 1 := by
      generalize hyy : 1 + t / q + t * t = y at *
      have e2 : 1 - (2 * (t * t) - 2) / y + (1 - t / q + t * t) / y = 4 / y := by
        rw [eq_div_iff hy.ne', add_mul, sub_mul, div_mul_cancel₀ _ hy.ne', div_mul_cancel₀ _ hy.ne', ← hyy]; ring
      rw [e2]
      field_simp
      norm_num
    simp only [e]
    simp

/-- the gains of the resonator: 1 at `fc`, 0 for a constant signal and at half of the sampling rate -/
theorem C140_resonator_gain (fc q : ℝ) (h0 : 0 < fc) (h1 : fc < 1 / 2) (hq : 0 < q) :
    ∃ c, resonator fc q = some c ∧ gainAt c 0 = 0 ∧ gainAt c fc = 1 ∧ gainAt c (1 / 2) = 0 := by
  obtain ⟨c, hc, hr, _⟩ := C140_resonator fc q h0 h1 hq
  refine ⟨c, hc, ?_, ?_, ?_⟩
  · rw [gainAt, hr 0 (by simp), warp_zero]; simp [bandpass, den]
  · rw [gainAt, hr fc (freq h0 h1).1.ne', warp_self h0 h1]
    simp [bandpass, den_I, hq.ne']
  · rw [resonator_coef h0 h1 hq _ _ rfl rfl] at hc
    injection hc with hc
    subst hc
    rw [gainAt, circle_half, transfer_neg]
    rw [show ∀ x y : ℝ, x / y - 0 + -x / y = 0 by intro x y; ring]
    simp

/-- **`iir_notch` is no notch filter**: for all parameters its response is `1 + 1 / tan²(π fc)` times that of the LOW-PASS filter,
since the middle coefficient is `(2 x² + 2) / y` instead of `(2 x² - 2) / y` (iir_filter.hpp 319) -/
theorem C140_notch_partial (fc q : ℝ) (h0 : 0 < fc) (h1 : fc < 1 / 2) (hq : 0 < q) :
    ∃ c, notch fc q = some c ∧ Realizes c (fun s => (1 + 1 / (Real.tan (Real.pi * fc) : ℂ) ^ 2) * lowpass q s) fc ∧ StableFilter c
      ∧ gainAt c fc = (1 + 1 / Real.tan (Real.pi * fc) ^ 2) * q := by
  obtain ⟨hc0, ht⟩ := freq h0 h1
  have hw := warp_self h0 h1
  have hN : ∃ c, notch fc q = some c ∧ Realizes c (fun s => (1 + 1 / (Real.tan (Real.pi * fc) : ℂ) ^ 2) * lowpass q s) fc
      ∧ StableFilter c := by
    generalize et : Real.tan (Real.pi * fc) = t at ht
    have hy := y_pos ht hq
    have ht' : (t : ℂ) ≠ 0 := by exact_mod_cast ht.ne'
    refine ⟨_, notch_coef h0 h1 hq t _ et rfl, ?_, ?_⟩
    · intro f hf
      have h := transfer_bilinear (t * t) (t / q) 1 (t * t + 1) 0 0 hy.ne' f hf
      simp only [warp, et, lowpass]
      rw [proto_scale t q _ ht _ _ _ (1 + 1 / (t : ℂ) ^ 2) 0 0 (by push_cast; field_simp) (by simp) (by simp)] at h
      rw [mul_one_div]
      rw [show 2 * (t * t) + 2 = 2 * (t * t + 1) by ring]
      simpa using h
    · intro z hz
      exact jury_div (div_pos ht hq) (mul_pos ht ht) rfl z hz
  obtain ⟨c, hc, hR, hS⟩ := hN
  refine ⟨c, hc, hR, hS, ?_⟩
  rw [gainAt, hR fc hc0.ne', hw]
  simp only [lowpass, Complex.ofReal_one, mul_one, den_I]
  have hp : (0 : ℝ) < 1 + 1 / Real.tan (Real.pi * fc) ^ 2 := by positivity
  rw [show (1 + 1 / (Real.tan (Real.pi * fc) : ℂ) ^ 2) * (1 / (Complex.I / (q : ℂ)))
      = ((1 + 1 / Real.tan (Real.pi * fc) ^ 2 : ℝ) : ℂ) * (q / Complex.I) by push_cast; rw [one_div_div]]
  rw [norm_mul, norm_div, Complex.norm_I, Complex.norm_real, Complex.norm_real, div_one, Real.norm_of_nonneg hp.le,
    Real.norm_of_nonneg hq.le]

/-- the frequency to be removed is amplified instead -/
theorem C140_notch_refuted :
    ¬ ∀ fc q : ℝ, 0 < fc → fc < 1 / 2 → 0 < q → ∃ c, notch fc q = some c ∧ gainAt c fc = 0 := by
  intro h
  obtain ⟨c, hc, hg⟩ := h (1 / 4) 1 (by norm_num) (by norm_num) (by norm_num)
  obtain ⟨c', hc', _, _, hg'⟩ := C140_notch_partial (1 / 4) 1 (by norm_num) (by norm_num) (by norm_num)
  rw [hc] at hc'
  injection hc' with hc'
  subst hc'
  rw [hg, show Real.pi * (1 / 4) = Real.pi / 4 by ring, Real.tan_pi_div_four] at hg'
  norm_num at hg'

/-- the response at `f` of an ideal second order band-pass filter with edges `f1` and `f2` (there the power is halved):
`B s / (s² + B s + u1 u2)` with `ui = tan(π fi)`, `B = u2 - u1`, `s = i tan(π f)` -/
noncomputable def bandPassWith (k f1 f2 f : ℝ) : ℂ :=
  let u1 := Real.tan (Real.pi * f1)
  let u2 := Real.tan (Real.pi * f2)
  let s : ℂ := Complex.I * (Real.tan (Real.pi * f) : ℂ)
  ((u2 - u1 : ℝ) * s) / (s ^ 2 + (u2 - u1 : ℝ) * s + ((u1 * u2 * k : ℝ) : ℂ))

/-- the same for the band-elimination filter: `(s² + u1 u2) / (s² + B s + u1 u2)` -/
noncomputable def bandStopWith (k f1 f2 f : ℝ) : ℂ :=
  let u1 := Real.tan (Real.pi * f1)
  let u2 := Real.tan (Real.pi * f2)
  let s : ℂ := Complex.I * (Real.tan (Real.pi * f) : ℂ)
  (s ^ 2 + ((u1 * u2 * k : ℝ) : ℂ)) / (s ^ 2 + (u2 - u1 : ℝ) * s + ((u1 * u2 * k : ℝ) : ℂ))

/-- **The centre of the band is misplaced**: the response of `iir_bpf` is that of the band-pass filter with the product of the edges
divided by `π` (`k = 1 / π` instead of `k = 1`), since `four_pi` stands for `4 π²` (iir_filter.hpp 174). The filter is stable. -/
theorem C140_bpf_partial (f1 f2 : ℝ) (h0 : 0 < f1) (h : f1 < f2) (h2 : f2 < 1 / 2) :
    ∃ c, bpf f1 f2 = some c ∧ StableFilter c
      ∧ ∀ f, Real.cos (Real.pi * f) ≠ 0 →
        transfer c.a0 c.a1 c.a2 c.b0 c.b1 c.b2 (circle f) = bandPassWith (1 / Real.pi) f1 f2 f := by
  obtain ⟨ht1, ht⟩ := tan_mono h0 h h2
  generalize et1 : Real.tan (Real.pi * f1) = t1 at ht1 ht
  generalize et2 : Real.tan (Real.pi * f2) = t2 at ht
  have hx : 0 < t2 - t1 := by linarith
  have hx2 : 0 < t1 * t2 / Real.pi := div_pos (mul_pos ht1 (by linarith)) Real.pi_pos
  have hy : 0 < 1 + (t2 - t1) + t1 * t2 / Real.pi := by linarith
  refine ⟨_, bpf_coef h0 (by linarith) (by linarith) h2 t1 t2 _ et1 et2 rfl hy.ne', ?_, ?_⟩
  · intro z hz
    exact jury_div hx hx2 rfl z hz
  · intro f hf
    have hb := transfer_bilinear (t1 * t2 / Real.pi) (t2 - t1) 1 0 (t2 - t1) 0 hy.ne' f hf
    simp only [bandPassWith, et1, et2, mul_one_div]
    simpa using hb

/-- the same for `iir_bef` (iir_filter.hpp 230) -/
theorem C140_bef_partial (f1 f2 : ℝ) (h0 : 0 < f1) (h : f1 < f2) (h2 : f2 < 1 / 2) :
    ∃ c, bef f1 f2 = some c ∧ StableFilter c
      ∧ ∀ f, Real.cos (Real.pi * f) ≠ 0 →
        transfer c.a0 c.a1 c.a2 c.b0 c.b1 c.b2 (circle f) = bandStopWith (1 / Real.pi) f1 f2 f := by
  obtain ⟨ht1, ht⟩ := tan_mono h0 h h2
  generalize et1 : Real.tan (Real.pi * f1) = t1 at ht1 ht
  generalize et2 : Real.tan (Real.pi * f2) = t2 at ht
  have hx : 0 < t2 - t1 := by linarith
  have hx2 : 0 < t1 * t2 / Real.pi := div_pos (mul_pos ht1 (by linarith)) Real.pi_pos
  have hy : 0 < 1 + (t2 - t1) + t1 * t2 / Real.pi := by linarith
  refine ⟨_, bef_coef h0 (by linarith) (by linarith) h2 t1 t2 _ et1 et2 rfl hy.ne', ?_, ?_⟩
  · intro z hz
    exact jury_div hx hx2 rfl z hz
  · intro f hf
    have hb := transfer_bilinear (t1 * t2 / Real.pi) (t2 - t1) 1 (t1 * t2 / Real.pi) 0 1 hy.ne' f hf
    simp only [bandStopWith, et1, et2, mul_one_div]
    rw [show t1 * t2 / Real.pi + 1 = 1 + 0 + t1 * t2 / Real.pi by ring]
    simpa using hb

theorem tan_sixth : Real.tan (Real.pi * (1 / 6)) = 1 / √3 := by
  rw [show Real.pi * (1 / 6) = Real.pi / 6 by ring, Real.tan_pi_div_six]

theorem tan_third : Real.tan (Real.pi * (1 / 3)) = √3 := by
  rw [show Real.pi * (1 / 3) = Real.pi / 3 by ring, Real.tan_pi_div_three]

theorem tan_quarter : Real.tan (Real.pi * (1 / 4)) = 1 := by
  rw [show Real.pi * (1 / 4) = Real.pi / 4 by ring, Real.tan_pi_div_four]

theorem cos_quarter : Real.cos (Real.pi * (1 / 4)) ≠ 0 := freq_ne (by norm_num) (by norm_num)

theorem inv_pi_lt : 1 / Real.pi ≤ 1 / 2 := by
  rw [div_le_div_iff₀ Real.pi_pos (by norm_num)]
  linarith [Real.two_le_pi]

/-- the centre of the band (here 1/4, between 1/6 and 1/3: the geometric mean of the tangents) is not passed unchanged -/
theorem C140_bpf_refuted :
    ¬ ∀ f1 f2 fm : ℝ, 0 < f1 → f1 < fm → fm < f2 → f2 < 1 / 2
      → Real.tan (Real.pi * fm) ^ 2 = Real.tan (Real.pi * f1) * Real.tan (Real.pi * f2)
      → ∃ c, bpf f1 f2 = some c ∧ transfer c.a0 c.a1 c.a2 c.b0 c.b1 c.b2 (circle fm) = 1 := by
  intro h
  obtain ⟨c, hc, hg⟩ := h (1 / 6) (1 / 3) (1 / 4) (by norm_num) (by norm_num) (by norm_num) (by norm_num)
    (by rw [tan_sixth, tan_third, tan_quarter]; simp)
  obtain ⟨c', hc', _, hR⟩ := C140_bpf_partial (1 / 6) (1 / 3) (by norm_num) (by norm_num) (by norm_num)
  rw [hc] at hc'
  injection hc' with hc'
  subst hc'
  rw [hR _ cos_quarter, bandPassWith, tan_quarter, tan_sixth, tan_third] at hg
  have h3 : (√3 : ℝ) ≠ 0 := by positivity
  rw [show 1 / √3 * √3 * (1 / Real.pi) = 1 / Real.pi by field_simp] at hg
  have hp := inv_pi_lt
  by_cases hd : ((Complex.I * ((1 : ℝ) : ℂ)) ^ 2 + (√3 - 1 / √3 : ℝ) * (Complex.I * ((1 : ℝ) : ℂ)) + ((1 / Real.pi : ℝ) : ℂ)) = 0
  · simp only [hd, div_zero] at hg
    exact zero_ne_one hg
  · rw [div_eq_one_iff_eq hd] at hg
    have hr := congrArg Complex.re hg
    simp [pow_two, Complex.add_re, Complex.mul_re] at hr
    rw [one_div] at hp
    linarith

/-- the centre of the band is not removed -/
theorem C140_bef_refuted :
    ¬ ∀ f1 f2 fm : ℝ, 0 < f1 → f1 < fm → fm < f2 → f2 < 1 / 2
      → Real.tan (Real.pi * fm) ^ 2 = Real.tan (Real.pi * f1) * Real.tan (Real.pi * f2)
      → ∃ c, bef f1 f2 = some c ∧ transfer c.a0 c.a1 c.a2 c.b0 c.b1 c.b2 (circle fm) = 0 := by
  intro h
  obtain ⟨c, hc, hg⟩ := h (1 / 6) (1 / 3) (1 / 4) (by norm_num) (by norm_num) (by norm_num) (by norm_num)
    (by rw [tan_sixth, tan_third, tan_quarter]; simp)
  obtain ⟨c', hc', _, hR⟩ := C140_bef_partial (1 / 6) (1 / 3) (by norm_num) (by norm_num) (by norm_num)
  rw [hc] at hc'
  injection hc' with hc'
  subst hc'
  rw [hR _ cos_quarter, bandStopWith, tan_quarter, tan_sixth, tan_third] at hg
  have h3 : (√3 : ℝ) ≠ 0 := by positivity
  rw [show 1 / √3 * √3 * (1 / Real.pi) = 1 / Real.pi by field_simp] at hg
  have hp := inv_pi_lt
  rw [one_div] at hp
  simp only [div_eq_zero_iff] at hg
  rcases hg with hg | hg
  · have hr := congrArg Complex.re hg
    simp [pow_two] at hr
    linarith
  · have hr := congrArg Complex.re hg
    simp [pow_two] at hr
    linarith

/-- with the constant `4 π²` the centre would be passed, respectively removed, and the power halved at the edges -/
theorem C140_band_intended (f1 f2 fm : ℝ) (h0 : 0 < f1) (h : f1 < f2) (h2 : f2 < 1 / 2)
    (hm : Real.tan (Real.pi * fm) ^ 2 = Real.tan (Real.pi * f1) * Real.tan (Real.pi * f2)) :
    bandPassWith 1 f1 f2 fm = 1 ∧ bandStopWith 1 f1 f2 fm = 0
      ∧ ‖bandPassWith 1 f1 f2 f1‖ ^ 2 = 1 / 2 ∧ ‖bandPassWith 1 f1 f2 f2‖ ^ 2 = 1 / 2 := by
  obtain ⟨ht1, ht⟩ := tan_mono h0 h h2
  simp only [bandPassWith, bandStopWith, mul_one]
  generalize Real.tan (Real.pi * f1) = t1 at *
  generalize Real.tan (Real.pi * f2) = t2 at *
  generalize Real.tan (Real.pi * fm) = u at *
  have ht2 : 0 < t2 := by linarith
  have hx : 0 < t2 - t1 := by linarith
  have hxC : ((t2 - t1 : ℝ) : ℂ) ≠ 0 := by exact_mod_cast hx.ne'
  have hu : u ≠ 0 := by
    intro h0
    rw [h0] at hm
    have := mul_pos ht1 ht2
    norm_num at hm
    rcases hm with hm | hm <;> linarith
  have huC : (u : ℂ) ≠ 0 := by exact_mod_cast hu
  have e : (Complex.I * (u : ℂ)) ^ 2 + ((t1 * t2 : ℝ) : ℂ) = 0 := by
    rw [← hm]; push_cast; rw [mul_pow, Complex.I_sq]; ring
  have nI : ‖(1 + Complex.I : ℂ)‖ ^ 2 = 2 := by
    rw [← Complex.normSq_eq_norm_sq, Complex.normSq_apply]; norm_num
  have nI' : ‖(1 - Complex.I : ℂ)‖ ^ 2 = 2 := by
    rw [← Complex.normSq_eq_norm_sq, Complex.normSq_apply]; norm_num
  refine ⟨?_, ?_, ?_, ?_⟩
  · rw [show (Complex.I * (u : ℂ)) ^ 2 + ((t2 - t1 : ℝ) : ℂ) * (Complex.I * u) + ((t1 * t2 : ℝ) : ℂ)
        = ((t2 - t1 : ℝ) : ℂ) * (Complex.I * u) by linear_combination e]
    exact div_self (mul_ne_zero hxC (mul_ne_zero Complex.I_ne_zero huC))
  · rw [e, zero_div]
  · have e1 : (Complex.I * (t1 : ℂ)) ^ 2 + ((t2 - t1 : ℝ) : ℂ) * (Complex.I * t1) + ((t1 * t2 : ℝ) : ℂ)
        = ((t2 - t1 : ℝ) * t1 : ℂ) * (1 + Complex.I) := by
      push_cast; linear_combination (t1 : ℂ) ^ 2 * Complex.I_sq
    rw [e1, show ((t2 - t1 : ℝ) : ℂ) * (Complex.I * t1) = ((t2 - t1 : ℝ) * t1 : ℂ) * Complex.I by ring, mul_div_mul_left, norm_div,
      div_pow, nI, Complex.norm_I]
    · norm_num
    · exact mul_ne_zero hxC (by exact_mod_cast ht1.ne')
  · have e1 : (Complex.I * (t2 : ℂ)) ^ 2 + ((t2 - t1 : ℝ) : ℂ) * (Complex.I * t2) + ((t1 * t2 : ℝ) : ℂ)
        = ((t2 - t1 : ℝ) * t2 : ℂ) * (-(1 - Complex.I)) := by
      push_cast; linear_combination (t2 : ℂ) ^ 2 * Complex.I_sq
    rw [e1, show ((t2 - t1 : ℝ) : ℂ) * (Complex.I * t2) = ((t2 - t1 : ℝ) * t2 : ℂ) * Complex.I by ring, mul_div_mul_left, norm_div,
      div_pow, norm_neg, nI', Complex.norm_I]
    · norm_num
    · exact mul_ne_zero hxC (by exact_mod_cast ht2.ne')

/-- the gains for a constant signal and at half of the sampling rate of a filter with the common denominator -/
theorem end_gains (x x2 y n0 n1 n2 : ℝ) (hx : 0 < x) (hx2 : 0 < x2) (ey : 1 + x + x2 = y) :
    transfer 1 ((2 * x2 - 2) / y) ((1 - x + x2) / y) (n0 / y) (n1 / y) (n2 / y) (circle 0) = (((n0 + n1 + n2) / (4 * x2) : ℝ) : ℂ)
    ∧ transfer 1 ((2 * x2 - 2) / y) ((1 - x + x2) / y) (n0 / y) (n1 / y) (n2 / y) (circle (1 / 2)) = (((n0 - n1 + n2) / 4 : ℝ) : ℂ) := by
  have hy : y ≠ 0 := by rw [← ey]; positivity
  have d1 : 1 + (2 * x2 - 2) / y + (1 - x + x2) / y = 4 * x2 / y := by
    rw [eq_div_iff hy, add_mul, add_mul, div_mul_cancel₀ _ hy, div_mul_cancel₀ _ hy, ← ey]; ring
  have d2 : 1 - (2 * x2 - 2) / y + (1 - x + x2) / y = 4 / y := by
    rw [eq_div_iff hy, add_mul, sub_mul, div_mul_cancel₀ _ hy, div_mul_cancel₀ _ hy, ← ey]; ring
  rw [circle_zero, circle_half, transfer_one, transfer_neg, d1, d2]
  constructor
  · congr 1; field_simp
  · congr 1; field_simp

/-- **The shelf is not at the gain `G = g + 1`, and the rest is not left alone**: the gains of `iir_low_shelving` for a constant signal
and at half of the sampling rate exceed `G` and `1` by the amounts below, since the last coefficient has `+` instead of `-` in front
of `g_ * x / q` (iir_filter.hpp 372). The filter is stable. -/
theorem C140_low_shelving_partial (fc q g : ℝ) (h0 : 0 < fc) (h1 : fc < 1 / 2) (hq : 0 < q) :
    ∃ c, lowShelving fc q g = some c ∧ StableFilter c
      ∧ transfer c.a0 c.a1 c.a2 c.b0 c.b1 c.b2 (circle 0)
        = ((g + 1 + √(g + 1) / (2 * q * Real.tan (Real.pi * fc)) : ℝ) : ℂ)
      ∧ transfer c.a0 c.a1 c.a2 c.b0 c.b1 c.b2 (circle (1 / 2))
        = ((1 + √(g + 1) * Real.tan (Real.pi * fc) / (2 * q) : ℝ) : ℂ) := by
  obtain ⟨_, ht⟩ := freq h0 h1
  generalize et : Real.tan (Real.pi * fc) = t at ht
  refine ⟨_, lowShelving_coef g h0 h1 hq t _ et rfl, fun z hz => jury_div (div_pos ht hq) (mul_pos ht ht) rfl z hz, ?_, ?_⟩
  · rw [(end_gains _ _ _ _ _ _ (div_pos ht hq) (mul_pos ht ht) rfl).1]
    congr 1; field_simp; ring
  · rw [(end_gains _ _ _ _ _ _ (div_pos ht hq) (mul_pos ht ht) rfl).2]
    congr 1; field_simp; ring

/-- even with no gain at all (`g = 0`) the low shelving filter changes constant signals -/
theorem C140_low_shelving_refuted :
    ¬ ∀ fc q g : ℝ, 0 < fc → fc < 1 / 2 → 0 < q → 0 ≤ g →
      ∃ c, lowShelving fc q g = some c ∧ transfer c.a0 c.a1 c.a2 c.b0 c.b1 c.b2 (circle 0) = ((g + 1 : ℝ) : ℂ) := by
  intro h
  obtain ⟨c, hc, hg⟩ := h (1 / 4) 1 0 (by norm_num) (by norm_num) (by norm_num) (by norm_num)
  obtain ⟨c', hc', _, hg', _⟩ := C140_low_shelving_partial (1 / 4) 1 0 (by norm_num) (by norm_num) (by norm_num)
  rw [hc] at hc'
  injection hc' with hc'
  subst hc'
  rw [hg, tan_quarter] at hg'
  have := Complex.ofReal_injective hg'
  norm_num at this

/-- the same for `iir_high_shelving` (iir_filter.hpp 428): the gains should be `1` and `G` -/
theorem C140_high_shelving_partial (fc q g : ℝ) (h0 : 0 < fc) (h1 : fc < 1 / 2) (hq : 0 < q) :
    ∃ c, highShelving fc q g = some c ∧ StableFilter c
      ∧ transfer c.a0 c.a1 c.a2 c.b0 c.b1 c.b2 (circle 0)
        = ((1 + √(g + 1) / (2 * q * Real.tan (Real.pi * fc)) : ℝ) : ℂ)
      ∧ transfer c.a0 c.a1 c.a2 c.b0 c.b1 c.b2 (circle (1 / 2))
        = ((g + 1 + √(g + 1) * Real.tan (Real.pi * fc) / (2 * q) : ℝ) : ℂ) := by
  obtain ⟨_, ht⟩ := freq h0 h1
  generalize et : Real.tan (Real.pi * fc) = t at ht
  refine ⟨_, highShelving_coef g h0 h1 hq t _ et rfl, fun z hz => jury_div (div_pos ht hq) (mul_pos ht ht) rfl z hz, ?_, ?_⟩
  · rw [(end_gains _ _ _ _ _ _ (div_pos ht hq) (mul_pos ht ht) rfl).1]
    congr 1; field_simp; ring
  · rw [(end_gains _ _ _ _ _ _ (div_pos ht hq) (mul_pos ht ht) rfl).2]
    congr 1; field_simp; ring

theorem C140_high_shelving_refuted :
    ¬ ∀ fc q g : ℝ, 0 < fc → fc < 1 / 2 → 0 < q → 0 ≤ g →
      ∃ c, highShelving fc q g = some c ∧ transfer c.a0 c.a1 c.a2 c.b0 c.b1 c.b2 (circle 0) = 1 := by
  intro h
  obtain ⟨c, hc, hg⟩ := h (1 / 4) 1 0 (by norm_num) (by norm_num) (by norm_num) (by norm_num)
  obtain ⟨c', hc', _, hg', _⟩ := C140_high_shelving_partial (1 / 4) 1 0 (by norm_num) (by norm_num) (by norm_num)
  rw [hc] at hc'
  injection hc' with hc'
  subst hc'
  rw [hg, tan_quarter, ← Complex.ofReal_one] at hg'
  have := Complex.ofReal_injective hg'
  norm_num at this

/-- **The peaking filter** adds the gain instead of multiplying by it, and with the same sign in both outer coefficients
(iir_filter.hpp 482, 484): away from the peak, for a constant signal and at half of the sampling rate, the gain is not 1 -/
theorem C140_peaking_partial (fc q g : ℝ) (h0 : 0 < fc) (h1 : fc < 1 / 2) (hq : 0 < q) :
    ∃ c, peaking fc q g = some c ∧ StableFilter c
      ∧ transfer c.a0 c.a1 c.a2 c.b0 c.b1 c.b2 (circle 0)
        = ((1 + (Real.tan (Real.pi * fc) / q + (g + 1)) / (2 * Real.tan (Real.pi * fc) ^ 2) : ℝ) : ℂ)
      ∧ transfer c.a0 c.a1 c.a2 c.b0 c.b1 c.b2 (circle (1 / 2))
        = ((1 + (Real.tan (Real.pi * fc) / q + (g + 1)) / 2 : ℝ) : ℂ) := by
  obtain ⟨_, ht⟩ := freq h0 h1
  generalize et : Real.tan (Real.pi * fc) = t at ht
  refine ⟨_, peaking_coef g h0 h1 hq t _ et rfl, fun z hz => jury_div (div_pos ht hq) (mul_pos ht ht) rfl z hz, ?_, ?_⟩
  · rw [(end_gains _ _ _ _ _ _ (div_pos ht hq) (mul_pos ht ht) rfl).1]
    congr 1; field_simp; ring
  · rw [(end_gains _ _ _ _ _ _ (div_pos ht hq) (mul_pos ht ht) rfl).2]
    congr 1; field_simp; ring

theorem C140_peaking_refuted :
    ¬ ∀ fc q g : ℝ, 0 < fc → fc < 1 / 2 → 0 < q → 0 ≤ g →
      ∃ c, peaking fc q g = some c ∧ transfer c.a0 c.a1 c.a2 c.b0 c.b1 c.b2 (circle 0) = 1 := by
  intro h
  obtain ⟨c, hc, hg⟩ := h (1 / 4) 1 0 (by norm_num) (by norm_num) (by norm_num) (by norm_num)
  obtain ⟨c', hc', _, hg', _⟩ := C140_peaking_partial (1 / 4) 1 0 (by norm_num) (by norm_num) (by norm_num)
  rw [hc] at hc'
  injection hc' with hc'
  subst hc'
  rw [hg, tan_quarter, ← Complex.ofReal_one] at hg'
  have := Complex.ofReal_injective hg'
  norm_num at this

/-! ## applying a filter -/

section Apply

variable {K : Type} [Field K]

/-- `apply_iir` sample by sample, the delays handed on -/
def filterAll (c : Coef K) : Delay K → List K → List K
  | _, [] => []
  | d, x :: xs => (applyIir x c d).1 :: filterAll c (applyIir x c d).2 xs

theorem filterAll_length (c : Coef K) (d : Delay K) (xs : List K) : (filterAll c d xs).length = xs.length := by
  induction xs generalizing d with
  | nil => rfl
  | cons x xs ih => simp [filterAll, ih]

/-- **The difference equation**: with the delays put in front of the signals, every result is the combination of the last three inputs
and the last two results -/
theorem C140_apply (c : Coef K) (d : Delay K) (xs : List K) (n : Nat) (hn : n < xs.length) :
    let X : List K := d.db1 :: d.db0 :: xs
    let Y : List K := d.da1 :: d.da0 :: filterAll c d xs
    Y.getD (n + 2) 0 = c.b0 * X.getD (n + 2) 0 + c.b1 * X.getD (n + 1) 0 + c.b2 * X.getD n 0
      - c.a1 * Y.getD (n + 1) 0 - c.a2 * Y.getD n 0 := by
  induction xs generalizing d n with
  | nil => simp at hn
  | cons x xs ih =>
    match n with
    | 0 => simp [filterAll, applyIir]
    | n + 1 =>
      have := ih (applyIir x c d).2 n (by simpa using hn)
      simpa [filterAll, applyIir] using this

/-- **The transfer function**: a geometric signal `zⁿ` (a complex exponential) comes out multiplied by `H(z)`, if the delays are those
of the signals at the times -1 and -2 -/
theorem C140_steady (c : Coef K) (z : K) (hz : z ≠ 0) (hD : 1 + c.a1 * z⁻¹ + c.a2 * (z⁻¹) ^ 2 ≠ 0) (n : Nat) :
    let H := (c.b0 + c.b1 * z⁻¹ + c.b2 * (z⁻¹) ^ 2) / (1 + c.a1 * z⁻¹ + c.a2 * (z⁻¹) ^ 2)
    filterAll c ⟨H * z⁻¹, H * (z⁻¹) ^ 2, z⁻¹, (z⁻¹) ^ 2⟩ ((List.range n).map (fun i => z ^ i))
      = (List.range n).map (fun i => H * z ^ i) := by
  intro H
  have hH : c.b0 + c.b1 * z⁻¹ + c.b2 * (z⁻¹) ^ 2 - c.a1 * (H * z⁻¹) - c.a2 * (H * (z⁻¹) ^ 2) = H := by
    have : H * (1 + c.a1 * z⁻¹ + c.a2 * (z⁻¹) ^ 2) = c.b0 + c.b1 * z⁻¹ + c.b2 * (z⁻¹) ^ 2 := div_mul_cancel₀ _ hD
    linear_combination -this
  have key : ∀ k : K, filterAll c ⟨k * H * z⁻¹, k * H * (z⁻¹) ^ 2, k * z⁻¹, k * (z⁻¹) ^ 2⟩ ((List.range n).map (fun i => k * z ^ i))
      = (List.range n).map (fun i => k * H * z ^ i) := by
    intro k
    induction n generalizing k with
    | zero => rfl
    | succ n ih =>
      rw [List.range_succ_eq_map]
      simp only [List.map_cons, List.map_map, filterAll, pow_zero, mul_one, Function.comp_def]
      have e : (applyIir k c ⟨k * H * z⁻¹, k * H * (z⁻¹) ^ 2, k * z⁻¹, k * (z⁻¹) ^ 2⟩)
          = (k * H, ⟨(k * z) * H * z⁻¹, (k * z) * H * (z⁻¹) ^ 2, (k * z) * z⁻¹, (k * z) * (z⁻¹) ^ 2⟩) := by
        have e1 : c.b0 * k + c.b1 * (k * z⁻¹) + c.b2 * (k * (z⁻¹) ^ 2) - c.a1 * (k * H * z⁻¹) - c.a2 * (k * H * (z⁻¹) ^ 2) = k * H := by
          linear_combination k * hH
        have e2 : (k * z) * H * z⁻¹ = k * H := by field_simp
        have e3 : (k * z) * H * (z⁻¹) ^ 2 = k * H * z⁻¹ := by field_simp
        have e4 : (k * z) * z⁻¹ = k := by field_simp
        have e5 : (k * z) * (z⁻¹) ^ 2 = k * z⁻¹ := by field_simp
        simp only [applyIir, e1, e2, e3, e4, e5]
      rw [e]
      simp only [List.cons.injEq, true_and]
      have := ih (k * z)
      have r : ∀ i, k * z ^ (Nat.succ i) = k * z * z ^ i := fun i => by rw [pow_succ]; ring
      have r' : ∀ i, k * H * z ^ (Nat.succ i) = k * z * H * z ^ i := fun i => by rw [pow_succ]; ring
      simp only [r, r']
      exact this
  have := key 1
  simpa using this

end Apply

/-- a filter with real coefficients over the complex numbers -/
def Iir.Coef.toC (c : Coef ℝ) : Coef ℂ := ⟨c.a0, c.a1, c.a2, c.b0, c.b1, c.b2⟩

/-- the real part of a filtered complex signal is the filtered real part -/
theorem C140_real (c : Coef ℝ) (d : Delay ℂ) (xs : List ℂ) :
    (filterAll c.toC d xs).map Complex.re
      = filterAll c ⟨d.da0.re, d.da1.re, d.db0.re, d.db1.re⟩ (xs.map Complex.re) := by
  induction xs generalizing d with
  | nil => rfl
  | cons x xs ih =>
    have := ih (applyIir x c.toC d).2
    simp only [applyIir, Coef.toC] at this
    simp [filterAll, applyIir, Coef.toC, this]

/-- filtering `2, 4, 6` from rest: with `y[n] = x[n] + x[n-1] - y[n-2]` -/
example : filterAll (⟨1, 0, 1, 1, 1, 0⟩ : Coef ℚ) ⟨0, 0, 0, 0⟩ [2, 4, 6] = [2, 6, 8] := by
  norm_num [filterAll, applyIir]

/-- the low-pass filter at a quarter of the sampling rate with `q = 1` -/
example : lpf (1 / 4) 1 = some ⟨1, 0, 1 / 3, 1 / 3, 2 / 3, 1 / 3⟩ := by
  rw [lpf_coef (by norm_num) (by norm_num) (by norm_num) 1 3 tan_quarter (by norm_num)]
  norm_num

end Sprout
