import Verif.Proofs.Asin
import Mathlib.Analysis.Real.Pi.Bounds

/-!
# C158: the arc sine and the arc cosine

The specification is `Real.arcsin` and `Real.arccos` of Mathlib, defined as inverses of the sine and the cosine.
-/

namespace Sprout

open Asin

private theorem sixth : Real.arcsin (1 / 2) = Real.pi / 6 := by
  rw [← Real.sin_pi_div_six]
  exact Real.arcsin_sin (by linarith [Real.pi_pos]) (by linarith [Real.pi_pos])

/-- the function used for positive numbers, which are not less than -1/2 -/
private theorem asin_pos {x : ℝ} (h0 : 0 < x) (h1 : x ≤ 1) : asin x = some (if x > 0.5 then tail x else center x) := by
  have a : ¬|x| > 1 := by rw [abs_of_pos h0]; linarith
  have b : ¬x = 0 := by linarith
  have c : ¬x < 0 := by linarith
  have d : ¬x < -0.5 := by norm_num; linarith
  simp only [asin, a, b, c, impl, d, if_false]

/-- numbers of absolute value above one have no arc sine and no arc cosine, all others have -/
theorem C158_domain (x : ℝ) : ((asin x).isSome ↔ |x| ≤ 1) ∧ ((acos x).isSome ↔ |x| ≤ 1) := by
  by_cases h : |x| > 1
  · simp [asin, acos, h, not_le.mpr h]
  · have h' : |x| ≤ 1 := not_lt.mp h
    have ha : (asin x).isSome := by
      simp only [asin, h, if_false]
      split <;> rfl
    refine ⟨by simp [ha, h'], ?_⟩
    simp only [acos, h, if_false, acosImpl]
    split <;> simp [h', ha]

/-- the arc sine is odd -/
theorem C158_odd (x : ℝ) : asin (-x) = (asin x).map fun y => -y := by
  simp only [asin, abs_neg, neg_neg]
  by_cases h : |x| > 1
  · simp [h]
  simp only [h, if_false, neg_eq_zero]
  rcases lt_trichotomy x 0 with h1 | h1 | h1
  · have h2 : ¬-x < 0 := by linarith
    have h3 : ¬x = 0 := by linarith
    simp [h1, h2, h3]
  · simp [h1]
  · have h2 : -x < 0 := by linarith
    have h3 : ¬x = 0 := by linarith
    have h4 : ¬x < 0 := by linarith
    simp [h2, h3, h4]

/-- also the function it is computed by is odd, though it is called for positive numbers only -/
theorem C158_impl_odd (x : ℝ) : impl (-x) = -impl x := by
  have hc : center (-x) = -center x := by simp only [center, center1]; ring_nf
  have e : (0.5 : ℝ) = 1 / 2 := by norm_num
  simp only [impl, e, hc, neg_neg]
  rcases lt_trichotomy x 0 with h | h | h
  · by_cases h1 : x < -(1 / 2)
    · have h2 : ¬-x < -(1 / 2) := by linarith
      have h3 : -x > 1 / 2 := by linarith
      simp only [h1, h2, h3, if_true, if_false, neg_neg]
    · have h2 : ¬-x < -(1 / 2) := by linarith
      have h3 : ¬-x > 1 / 2 := by linarith
      have h4 : ¬x > 1 / 2 := by linarith
      simp only [h1, h2, h3, h4, if_false]
  · subst h
    norm_num [center, center1]
  · by_cases h1 : x > 1 / 2
    · have h2 : -x < -(1 / 2) := by linarith
      have h3 : ¬x < -(1 / 2) := by linarith
      simp only [h1, h2, h3, if_true, if_false]
    · have h2 : ¬-x < -(1 / 2) := by linarith
      have h3 : ¬-x > 1 / 2 := by linarith
      have h4 : ¬x < -(1 / 2) := by linarith
      simp only [h1, h2, h3, h4, if_false]

private theorem asin_bound_pos {x : ℝ} (h0 : 0 < x) (h1 : x ≤ 1) :
    ∃ y, asin x = some y ∧ |y - Real.arcsin x| ≤ 27 / 10 ^ 15 * Real.arcsin x ∧ |y - Real.arcsin x| ≤ 27 / 10 ^ 15 * Real.arccos x := by
  refine ⟨_, asin_pos h0 h1, ?_⟩
  have hm : ∀ a b : ℝ, a ≤ b → Real.arcsin a ≤ Real.arcsin b := fun a b h => Real.monotone_arcsin h
  by_cases h : x > 0.5
  · rw [if_pos h]
    norm_num at h
    have ht := tail_close x (by linarith) h1
    have e : tail x - Real.arcsin x = -(√(1 - x) * -Gamma.horner tCoef x - Real.arccos x) := by
      simp only [tail, Real.arccos]; ring
    have hs := hm (1 / 2) x (by linarith)
    rw [sixth] at hs
    have hn := Real.arccos_nonneg x
    rw [e, abs_neg]
    constructor
    · refine ht.trans ?_
      simp only [Real.arccos]
      linarith [Real.pi_pos]
    · linarith
  · rw [if_neg h]
    norm_num at h
    have ht := center_close x h0.le (by linarith)
    have hs := hm x (1 / 2) (by linarith)
    rw [sixth] at hs
    refine ⟨ht, ht.trans ?_⟩
    simp only [Real.arccos]
    linarith [Real.pi_pos]

/-- the arc sine has a relative error of at most 2.7e-14 on its whole domain -/
theorem C158_asin (x : ℝ) (hx : |x| ≤ 1) : ∃ y, asin x = some y ∧ |y - Real.arcsin x| ≤ 27 / 10 ^ 15 * |Real.arcsin x| := by
  have := abs_le.mp hx
  rcases lt_trichotomy x 0 with h | h | h
  · obtain ⟨y, hy, hb, -⟩ := asin_bound_pos (x := -x) (by linarith) (by linarith)
    have e := C158_odd (-x)
    rw [neg_neg, hy] at e
    refine ⟨-y, e, ?_⟩
    rw [Real.arcsin_neg] at hb
    rw [abs_of_nonpos (Real.arcsin_nonpos.mpr h.le), ← abs_neg]
    refine le_trans (le_of_eq ?_) hb
    congr 1
    ring
  · subst h
    exact ⟨0, by simp [asin], by simp⟩
  · obtain ⟨y, hy, hb, -⟩ := asin_bound_pos h (by linarith)
    rw [abs_of_nonneg (Real.arcsin_nonneg.mpr h.le)]
    exact ⟨y, hy, hb⟩

private theorem asin_one : asin 1 = some (Real.pi / 2) := by
  have h : (1 : ℝ) > 0.5 := by norm_num
  rw [asin_pos one_pos le_rfl]
  simp [h, tail]

/-- the arc cosine is the difference of the arc sine to a quarter of a turn -/
theorem C158_complement (x y : ℝ) (hy : asin x = some y) : acos x = some (Real.pi / 2 - y) := by
  have h : ¬|x| > 1 := by
    intro h
    simp [asin, h] at hy
  simp only [acos, h, if_false, acosImpl, hy, Option.map_some]
  split
  · rename_i h1
    rw [h1, asin_one] at hy
    rw [← Option.some.inj hy, sub_self]
  · rfl

/-- the arc cosine has a relative error of at most 2.7e-14 on its whole domain, also close to one, where it vanishes -/
theorem C158_acos (x : ℝ) (hx : |x| ≤ 1) : ∃ y, acos x = some y ∧ |y - Real.arccos x| ≤ 27 / 10 ^ 15 * Real.arccos x := by
  have := abs_le.mp hx
  have key : ∃ y, asin x = some y ∧ |y - Real.arcsin x| ≤ 27 / 10 ^ 15 * Real.arccos x := by
    by_cases h : 0 < x
    · obtain ⟨y, hy, -, hb⟩ := asin_bound_pos h (by linarith)
      exact ⟨y, hy, hb⟩
    · obtain ⟨y, hy, hb⟩ := C158_asin x hx
      refine ⟨y, hy, hb.trans ?_⟩
      rw [abs_of_nonpos (Real.arcsin_nonpos.mpr (not_lt.mp h))]
      simp only [Real.arccos]
      linarith [Real.pi_pos]
  obtain ⟨y, hy, hb⟩ := key
  refine ⟨_, C158_complement x y hy, le_trans (le_of_eq ?_) hb⟩
  rw [← abs_neg]
  congr 1
  simp only [Real.arccos]
  ring

/-- exact values: the arc sine of 0 and 1 and -1, the arc cosine of 1 -/
theorem C158_exact : asin 0 = some 0 ∧ asin 1 = some (Real.pi / 2) ∧ asin (-1) = some (-(Real.pi / 2)) ∧ acos 1 = some 0 := by
  refine ⟨by simp [asin], asin_one, ?_, by simp [acos]⟩
  rw [C158_odd, asin_one]
  rfl

/-- the results are in the ranges of the functions up to the same error: the arc sine has the sign of its argument -/
theorem C158_sign (x y : ℝ) (hy : asin x = some y) : (0 < x → 0 < y) ∧ (x < 0 → y < 0) := by
  have hx : |x| ≤ 1 := by
    rw [← (C158_domain x).1, hy]
    rfl
  obtain ⟨z, hz, hb⟩ := C158_asin x hx
  rw [hy] at hz
  cases hz
  constructor <;> intro h
  · have hp := Real.arcsin_pos.mpr h
    rw [abs_of_pos hp] at hb
    linarith [(abs_le.mp hb).1]
  · have hp := Real.arcsin_lt_zero.mpr h
    rw [abs_of_neg hp] at hb
    linarith [(abs_le.mp hb).2]

/-- the polynomials are not made for `long double`: at 1/2 the error is more than 1e-17, some 200 units in the last place of 64 digits -/
theorem C158_long_double_refuted : ∃ y, asin (1 / 2) = some y ∧ 1 / 10 ^ 17 < |y - Real.arcsin (1 / 2)| := by
  have h : ¬(1 / 2 : ℝ) > 0.5 := by norm_num
  refine ⟨_, asin_pos (by norm_num) (by norm_num), ?_⟩
  rw [if_neg h, sixth, lt_abs]
  right
  have := Real.pi_gt_d20
  simp only [center, center1, Gamma.horner, cCoef, List.foldl]
  push_cast
  norm_num at this ⊢
  linarith

/-- at 1/2 the first polynomial is used; it gives the sixth of a half turn to 16 digits -/
example : ∃ y, asin (1 / 2) = some y ∧ |y - 0.5235987755982988| ≤ 1 / 10 ^ 15 := by
  have h : ¬(1 / 2 : ℝ) > 0.5 := by norm_num
  refine ⟨_, asin_pos (by norm_num) (by norm_num), ?_⟩
  rw [if_neg h]
  simp only [center, center1, Gamma.horner, cCoef, List.foldl]
  push_cast
  norm_num [abs_le]

example : asin 1.5 = none := by
  have h : |(1.5 : ℝ)| > 1 := by norm_num [abs_of_pos]
  simp only [asin, h, if_true]

end Sprout
