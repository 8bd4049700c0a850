import Verif.Proofs.ErfBound

/-!
# C154: the error function and its complement

`sprout/math/erf.hpp` and `erfc.hpp`, without the builtin functions. The specification is `Spec.erf`, the integral.
-/

namespace Sprout

open Sprout.ErfPoly

/-- `erf` is the error function, to `10 ^ -18`, and relative to the argument where this is small -/
theorem C154_accuracy (x : ℝ) : |Erf.erf x - Spec.erf x| ≤ min |x| 1 / 10 ^ 18 := erf_bound x

/-- `erf` is odd -/
theorem C154_odd (x : ℝ) : Erf.erf (-x) = -Erf.erf x := by
  unfold Erf.erf Erf.impl Erf.impl1 Erf.impl2a Erf.impl2a1 Erf.impl2b Erf.impl3
  rcases lt_trichotomy x 0 with h | h | h
  · have h1 : ¬-x < 0 := by linarith
    have h2 : ¬-x = 0 := by linarith
    simp only [h1, h2, h, h.ne, if_true, if_false]
    split_ifs <;> ring
  · subst h
    simp
  · have h1 : ¬x < 0 := by linarith
    have h2 : -x < 0 := by linarith
    have h3 : ¬-x = 0 := by linarith
    simp only [h1, h2, h3, h.ne', if_true, if_false, neg_neg]
    split_ifs <;> ring

/-- `erf` is positive for positive arguments -/
theorem C154_pos (x : ℝ) (hx : 0 < x) : 0 < Erf.erf x := by
  have h := (abs_le.mp (erf_bound x)).1
  rw [abs_of_pos hx] at h
  have m1 := min_le_left x 1
  rcases le_total x 2.2 with h2 | h2
  · have := erf_ge x hx.le h2
    norm_num at h
    linarith
  · have := erf_ge 2.2 (by norm_num) le_rfl
    have := erf_mono _ _ h2
    have m2 := min_le_right x 1
    generalize min x 1 = m at *
    norm_num at *
    linarith

/-- `erf` does not exceed one -/
theorem C154_range (x : ℝ) : |Erf.erf x| ≤ 1 := by
  have key : ∀ x : ℝ, 0 < x → Erf.erf x ≤ 1 := by
    intro x hx
    have hx' : ¬x < 0 := by linarith
    by_cases h2 : x < 2.2
    · have h := (abs_le.mp (erf_bound x)).2
      have := erf_low x h2.le
      have m2 := min_le_right |x| 1
      generalize min |x| 1 = m at *
      norm_num at *
      linarith
    · unfold Erf.erf Erf.impl Erf.impl1 Erf.impl2b Erf.impl3
      simp only [hx', hx.ne', h2, if_false]
      split_ifs
      · have : 0 ≤ Gamma.horner (Erf.erfB (Gamma.toInt x - 2)) (Erf.frac x) ^ 16 := Even.pow_nonneg (by decide) _
        linarith
      · exact le_rfl
  rw [abs_le]
  rcases lt_trichotomy x 0 with h | h | h
  · have h1 := key (-x) (by linarith)
    have h2 := C154_pos (-x) (by linarith)
    rw [C154_odd] at h1 h2
    constructor <;> linarith
  · subst h
    simp [Erf.erf]
  · exact ⟨by linarith [C154_pos x h], key x h⟩

/-- from 6.9 on `erf` is one -/
theorem C154_saturate (x : ℝ) (hx : 6.9 ≤ x) : Erf.erf x = 1 := by
  norm_num at hx
  have h0 : ¬x = 0 := by linarith
  have h1 : ¬x < 0 := by linarith
  have h2 : ¬x < 2.2 := by norm_num; linarith
  have h3 : ¬x < 6.9 := by norm_num; linarith
  simp only [Erf.erf, Erf.impl, Erf.impl1, Erf.impl3, h0, h1, h2, h3, if_false]

/-- `erfc` is the complement, to `10 ^ -18`. What is missing is an error relative to the result, which is small for large arguments; this does not
hold, see `C154_erfc_refuted`. -/
theorem C154_erfc_partial (x : ℝ) : |Erf.erfc x - (1 - Spec.erf x)| ≤ 1 / 10 ^ 18 := by
  have h := erf_bound x
  have := min_le_right |x| 1
  have e : Erf.erfc x - (1 - Spec.erf x) = -(Erf.erf x - Spec.erf x) := by
    simp only [Erf.erfc, Erf.erfcImpl]; ring
  rw [e, abs_neg]
  refine h.trans ?_
  norm_num
  linarith

/-- the values of `erfc` at opposite arguments add up to two -/
theorem C154_erfc_symm (x : ℝ) : Erf.erfc x + Erf.erfc (-x) = 2 := by
  simp only [Erf.erfc, Erf.erfcImpl, C154_odd]; ring

/-- `erfc` is between zero and two -/
theorem C154_erfc_range (x : ℝ) : 0 ≤ Erf.erfc x ∧ Erf.erfc x ≤ 2 := by
  have := abs_le.mp (C154_range x)
  simp only [Erf.erfc, Erf.erfcImpl]
  constructor <;> linarith

/-- from 6.9 on `erfc` is zero, whereas the complement of the error function is positive: the relative error is one -/
theorem C154_erfc_refuted (x : ℝ) (hx : 6.9 ≤ x) : Erf.erfc x = 0 ∧ 0 < 1 - Spec.erf x := by
  refine ⟨by simp only [Erf.erfc, Erf.erfcImpl, C154_saturate x hx]; ring, ?_⟩
  have := erf_lt_one x (by norm_num at hx; linarith)
  linarith

/-- the value at 1 to 15 digits: the first polynomial is not used, the second is -/
example : |Erf.erf 1 - 0.842700792949715| ≤ 1 / 10 ^ 15 := by
  have e : Gamma.toInt (1 * 1) = 1 := toInt_eq (1 * 1) 1 (by norm_num) (by norm_num) (by norm_num)
  have h0 : ¬(1 : ℝ) < 0 := by norm_num
  have h1 : (1 : ℝ) < 2.2 := by norm_num
  simp only [Erf.erf, one_ne_zero, if_false, Erf.impl, h0, Erf.impl1, h1, if_true, Erf.impl2a, Erf.impl2a1, Erf.frac, e, Erf.impl3,
    Erf.erfA, Gamma.horner, Erf.erfA1, List.foldl]
  push_cast
  norm_num [abs_le]

example : 0 < Erf.erf (1 / 10 ^ 30) := C154_pos _ (by positivity)

end Sprout
