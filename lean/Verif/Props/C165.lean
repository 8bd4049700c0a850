import Verif.Model.Sigmoid
import Mathlib.Analysis.SpecialFunctions.ExpDeriv
import Mathlib.Analysis.Calculus.Deriv.Inv
import Mathlib.Analysis.Complex.ExponentialBounds
import Mathlib.Tactic.Linarith
import Mathlib.Tactic.FieldSimp

/-!
# C165: the logistic function and its derivatives

Refuted: with rounding, the derivatives are 0 for all arguments from 37 on, where they should be positive.
-/

namespace Sprout
open Sigmoid

/-- the logistic function with slope `a` -/
noncomputable def logistic (a x : ℝ) : ℝ := (1 + Real.exp (-(a * x)))⁻¹

/-- the full statement: in arithmetic with the rounding `R` the functions have a relative error of at most `e` -/
def C165_statement (R : ℝ → ℝ) (e : ℝ) : Prop := ∀ x, |dSigmoid1 R x - deriv (logistic 1) x| ≤ e * |deriv (logistic 1) x|

private theorem den_pos (y : ℝ) : 0 < 1 + Real.exp (-y) := by have := Real.exp_pos (-y); linarith

/-- `sigmoid` is the logistic function -/
theorem C165_sigmoid (x a : ℝ) : sigmoid1 id x = logistic 1 x ∧ sigmoid2 id x a = logistic a x := by
  simp [sigmoid1, sigmoid2, logistic]

/-- it is between 0 and 1, `sigmoid(0)` is a half, and the graph is symmetric about this point -/
theorem C165_range (x : ℝ) : 0 < sigmoid1 id x ∧ sigmoid1 id x < 1 ∧ sigmoid1 id 0 = 1 / 2 ∧ sigmoid1 id x + sigmoid1 id (-x) = 1 := by
  have h := Real.exp_pos (-x)
  have h' := Real.exp_pos x
  simp only [sigmoid1, id, neg_neg]
  refine ⟨by positivity, ?_, by norm_num, ?_⟩
  · rw [div_lt_one (by linarith)]; linarith
  · rw [Real.exp_neg]
    field_simp
    ring

/-- `d_sigmoid(x, a)` is the derivative of `sigmoid(x, a)` with respect to `x` -/
theorem C165_derivative_partial (x a : ℝ) : HasDerivAt (fun t => sigmoid2 id t a) (dSigmoid2 id x a) x ∧
    HasDerivAt (fun t => sigmoid1 id t) (dSigmoid1 id x) x := by
  have key : ∀ a : ℝ, HasDerivAt (fun t => sigmoid2 id t a) (dSigmoid2 id x a) x := by
    intro a
    have h0 : HasDerivAt (fun t : ℝ => -(a * t)) (-(a * 1)) x := ((hasDerivAt_id x).const_mul a).neg
    have h1 : HasDerivAt (fun t : ℝ => 1 + Real.exp (-(a * t))) (Real.exp (-(a * x)) * -(a * 1)) x := h0.exp.const_add 1
    have h2 := h1.inv (den_pos (a * x)).ne'
    have e : (fun t => sigmoid2 id t a) = (fun t : ℝ => 1 + Real.exp (-(a * t)))⁻¹ := by
      funext t; simp [sigmoid2, sigmoid1]
    rw [e]
    refine h2.congr_deriv ?_
    have := (den_pos (a * x)).ne'
    simp only [dSigmoid2, dImpl2, sigmoid2, sigmoid1, id]
    field_simp
    ring
  refine ⟨key a, ?_⟩
  have := key 1
  simpa [sigmoid2, dSigmoid2, dImpl2, dSigmoid1, dImpl1] using this

/-- `d2_sigmoid(x, a)` is the derivative of `d_sigmoid(x, a)` -/
theorem C165_second_partial (x a : ℝ) : HasDerivAt (fun t => dSigmoid2 id t a) (d2Sigmoid2 id x a) x ∧
    HasDerivAt (fun t => dSigmoid1 id t) (d2Sigmoid1 id x) x := by
  have key : ∀ a : ℝ, HasDerivAt (fun t => dSigmoid2 id t a) (d2Sigmoid2 id x a) x := by
    intro a
    have h := (C165_derivative_partial x a).1
    have h1 : HasDerivAt (fun t => dSigmoid2 id t a)
        ((a * dSigmoid2 id x a) * (1 - sigmoid2 id x a) + (a * sigmoid2 id x a) * (-dSigmoid2 id x a)) x :=
      (h.const_mul a).mul (h.const_sub 1)
    refine h1.congr_deriv ?_
    simp only [d2Sigmoid2, d2Impl2, dSigmoid2, dImpl2, id]
    ring
  refine ⟨key a, ?_⟩
  have := key 1
  simpa [sigmoid2, dSigmoid2, dImpl2, dSigmoid1, dImpl1, d2Sigmoid1, d2Sigmoid2, d2Impl1, d2Impl2] using this

/-- roundings to nearest with 53 digits have these properties: they are monotone, keep 0 and 1, and 1 + 2⁻⁵³ becomes 1 -/
structure Rounds53 (R : ℝ → ℝ) : Prop where
  mono : Monotone R
  zero : R 0 = 0
  one : R 1 = 1
  half : R (1 + 2⁻¹ ^ 53) = 1
  small : R (2⁻¹ ^ 53) = 2⁻¹ ^ 53

private theorem exp37 (x : ℝ) (hx : 37 ≤ x) : Real.exp (-x) ≤ 2⁻¹ ^ 53 := by
  have h1 : Real.exp (-x) ≤ Real.exp (-37) := Real.exp_le_exp.mpr (by linarith)
  have h2 : Real.exp (-37) = (Real.exp 1 ^ 37)⁻¹ := by
    rw [Real.exp_neg, ← Real.exp_nat_mul]; norm_num
  have h3 : (2.7 : ℝ) ^ 37 ≤ Real.exp 1 ^ 37 := pow_le_pow_left₀ (by norm_num) (by have := Real.exp_one_gt_d9; linarith) 37
  have h4 : (Real.exp 1 ^ 37)⁻¹ ≤ ((2.7 : ℝ) ^ 37)⁻¹ := inv_anti₀ (by positivity) h3
  have h5 : ((2.7 : ℝ) ^ 37)⁻¹ ≤ 2⁻¹ ^ 53 := by norm_num
  linarith

/-- from 37 on, `sigmoid` is rounded to 1, which is right, and both derivatives are 0 -/
theorem C165_large (R : ℝ → ℝ) (hR : Rounds53 R) (x : ℝ) (hx : 37 ≤ x) : sigmoid1 R x = 1 ∧ dSigmoid1 R x = 0 ∧ d2Sigmoid1 R x = 0 := by
  have h1 : R (Real.exp (-x)) ≤ 2⁻¹ ^ 53 := hR.small ▸ hR.mono (exp37 x hx)
  have h0 : 0 ≤ R (Real.exp (-x)) := hR.zero ▸ hR.mono (Real.exp_pos _).le
  have h2 : R (1 + R (Real.exp (-x))) = 1 := by
    apply le_antisymm
    · exact (hR.mono (by linarith)).trans hR.half.le
    · exact hR.one.symm.le.trans (hR.mono (by linarith))
  have h3 : sigmoid1 R x = 1 := by rw [sigmoid1, h2, div_one, hR.one]
  refine ⟨h3, ?_, ?_⟩
  · simp [dSigmoid1, dImpl1, h3, hR.zero]
  · simp [d2Sigmoid1, d2Impl1, h3, hR.zero]

/-- but the derivatives are positive and negative -/
theorem C165_signs (x : ℝ) (hx : 0 < x) : 0 < dSigmoid1 id x ∧ d2Sigmoid1 id x < 0 := by
  obtain ⟨h0, h1, -, -⟩ := C165_range x
  have h2 : 1 / 2 < sigmoid1 id x := by
    simp only [sigmoid1, id]
    have : Real.exp (-x) < 1 := Real.exp_lt_one_iff.mpr (by linarith)
    exact one_div_lt_one_div_of_lt (den_pos x) (by linarith)
  simp only [dSigmoid1, dImpl1, d2Sigmoid1, d2Impl1, id] at *
  have h3 : 0 < sigmoid1 id x * (1 - sigmoid1 id x) := mul_pos h0 (by linarith)
  exact ⟨h3, mul_neg_of_pos_of_neg h3 (by linarith)⟩

/-- so the relative error is 1: the statement does not hold for any smaller bound -/
theorem C165_refuted (R : ℝ → ℝ) (hR : Rounds53 R) (e : ℝ) (he : e < 1) : ¬ C165_statement R e := by
  intro h
  have h1 := h 37
  have hd : deriv (logistic 1) 37 = dSigmoid1 id 37 := by
    have : logistic 1 = fun t => sigmoid1 id t := by funext t; exact (C165_sigmoid t 1).1.symm
    rw [this]
    exact (C165_derivative_partial 37 1).2.deriv
  have hp := (C165_signs 37 (by norm_num)).1
  rw [hd, (C165_large R hR 37 le_rfl).2.1, zero_sub, abs_neg, abs_of_pos hp] at h1
  nlinarith

/-- `Rounds53` holds for some function -/
example : Rounds53 (fun x => if x < 1 then x else if x ≤ 1 + 2⁻¹ ^ 53 then 1 else x) := by
  refine ⟨?_, by norm_num, by norm_num, by norm_num, by norm_num⟩
  intro x y h
  dsimp only
  split_ifs <;> linarith

example : dSigmoid1 id 0 = 1 / 4 ∧ d2Sigmoid1 id 0 = 0 := by
  constructor <;> norm_num [dSigmoid1, dImpl1, d2Sigmoid1, d2Impl1, sigmoid1]

end Sprout
