import Verif.Model.LogGamma
import Verif.Proofs.Gamma
import Mathlib.Analysis.SpecialFunctions.Gamma.Beta
import Mathlib.Analysis.SpecialFunctions.Gamma.Deriv

/-!
# C153: the logarithm of the gamma function
-/

namespace Sprout

open LogGamma
open Gamma (horner)

/-- adjacent polynomials agree where they meet, so that their coefficients fit each other -/
theorem C153_pieces : (∀ k : ℤ, 0 ≤ k → k < 6 → |horner (lgB k) (1 / 2) - horner (lgB (k + 1)) (-1 / 2)| ≤ 1 / 10 ^ 15) ∧
    (∀ k : ℤ, 0 ≤ k → k < 4 → |horner (lgC k) (1 / 2) - horner (lgC (k + 1)) (-1 / 2)| ≤ 1 / 10 ^ 15) ∧
    |horner (lgB 6) (-1 / 8) - horner (lgC 0) 0| ≤ 1 / 10 ^ 15 ∧ |horner lgA0 (1 / 4) - horner lgA1 (1 / 4)| ≤ 1 / 10 ^ 15 := by
  refine ⟨?_, ?_, ?_, ?_⟩
  · intro k h0 h6
    interval_cases k <;> norm_num [lgB, horner, lgB0, lgB1, lgB2, lgB3, lgB4, lgB5, lgB6]
  · intro k h0 h4
    interval_cases k <;> norm_num [lgC, horner, lgC0, lgC1, lgC2, lgC3, lgC4]
  · norm_num [lgB, lgC, horner, lgB6, lgC0]
  · norm_num [horner, lgA0, lgA1]

/-- the polynomial used from `1.886` (the root of `x (x + 1/2) = 9/2`) to `8` is one made for the argument:
its variable is in the interval from `-1/2` to `1/2` -/
theorem C153_piece_partial (x : ℝ) (h1 : 9 / 2 ≤ x * (x + 1 / 2)) (h0 : 0 < x) (h2 : x ≠ 2) (h8 : x < 8) :
    ∃ (k : ℤ) (u : ℝ), -1 / 2 ≤ u ∧ u < 1 / 2 ∧
      ((0 ≤ k ∧ k < 7 ∧ x - 9 / 2 / (x + 1 / 2) = k - 7 / 2 + u ∧ lgamma x = some (horner (lgB k) u)) ∨
        (0 ≤ k ∧ k < 5 ∧ x = k + 7 / 2 + u ∧ lgamma x = some (horner (lgC k) u))) := by
  have hx1 : 3 / 2 < x := by nlinarith
  have hs : x + 1 / 2 ≠ 0 := by linarith
  have hneg : ¬ x < 0 := by linarith
  unfold lgamma impl impl1
  rw [if_neg (by rintro ⟨h, _⟩; linarith), if_neg (by linarith), if_neg h2, if_neg hneg, if_neg (by norm_num; linarith)]
  by_cases h35 : x < 3.5
  · have h35' : x < 7 / 2 := by norm_num at h35 ⊢; exact h35
    rw [if_pos h35]
    set t := x - 9 / 2 / (x + 1 / 2) with ht
    have e : Gamma.div 4.5 (x + 0.5) = some (9 / 2 / (x + 1 / 2)) := by
      rw [Gamma.div_some _ _ (by norm_num; linarith)]
      norm_num
    have t0 : 0 ≤ t := by
      rw [ht, sub_nonneg, div_le_iff₀ (by linarith)]
      exact h1
    have t3 : t < 3 := by
      rw [ht, sub_lt_comm, lt_div_iff₀ (by linarith)]
      nlinarith
    have f1 := Int.floor_le t
    have f2 := Int.lt_floor_add_one t
    have f0 : 0 ≤ ⌊t⌋ := Int.floor_nonneg.mpr t0
    have f3 : ⌊t⌋ < 3 := by
      have : (⌊t⌋ : ℝ) < ((3 : ℤ) : ℝ) := by push_cast; linarith
      exact_mod_cast this
    refine ⟨⌊t⌋ + 4, t - ((⌊t⌋ + 4 : ℤ) - 7 / 2), by push_cast; linarith, by push_cast; linarith, Or.inl ⟨by omega, by omega, by ring, ?_⟩⟩
    rw [e]
    simp only [Option.bind_eq_bind, Option.bind_some]
    rw [impl2b, impl2b1, impl3, if_neg hneg, Gamma.toInt, if_neg (not_lt.mpr t0), show (3.5 : ℝ) = 7 / 2 from by norm_num]
  · have h35' : 7 / 2 ≤ x := by norm_num at h35 ⊢; exact h35
    rw [if_neg h35, if_pos h8]
    have f1 := Int.floor_le x
    have f2 := Int.lt_floor_add_one x
    have f0 : 2 < ⌊x⌋ := by
      have : ((2 : ℤ) : ℝ) < ⌊x⌋ := by push_cast; linarith
      exact_mod_cast this
    have f3 : ⌊x⌋ < 8 := by
      have : (⌊x⌋ : ℝ) < ((8 : ℤ) : ℝ) := by push_cast; linarith
      exact_mod_cast this
    refine ⟨⌊x⌋ - 3, x - ((⌊x⌋ - 3 : ℤ) + 7 / 2), by push_cast; linarith, by push_cast; linarith, Or.inr ⟨by omega, by omega, by ring, ?_⟩⟩
    rw [impl2c, impl3, if_neg hneg, Gamma.toInt, if_neg hneg]
    norm_num

example : ∃ (k : ℤ) (u : ℝ), -1 / 2 ≤ u ∧ u < 1 / 2 ∧
      ((0 ≤ k ∧ k < 7 ∧ (5 / 2 : ℝ) - 9 / 2 / (5 / 2 + 1 / 2) = k - 7 / 2 + u ∧ lgamma (5 / 2) = some (horner (lgB k) u)) ∨
        (0 ≤ k ∧ k < 5 ∧ (5 / 2 : ℝ) = k + 7 / 2 + u ∧ lgamma (5 / 2) = some (horner (lgC k) u))) :=
  C153_piece_partial (5 / 2) (by norm_num) (by norm_num) (by norm_num) (by norm_num)

/-- between `1/2` and `1.886` it is not: the index of the polynomial is rounded towards zero, where the variable is negative, so that the
next polynomial is used outside of its interval, unless the variable is an integer -/
theorem C153_piece_refuted (x : ℝ) (h1 : 1 / 2 < x) (h2 : x * (x + 1 / 2) < 9 / 2) (hx : x ≠ 1)
    (hi : ∀ k : ℤ, x - 9 / 2 / (x + 1 / 2) ≠ k) :
    ∃ (k : ℤ) (u : ℝ), u < -1 / 2 ∧ 1 ≤ k ∧ k ≤ 4 ∧ x - 9 / 2 / (x + 1 / 2) = k - 7 / 2 + u ∧ lgamma x = some (horner (lgB k) u) := by
  have hx2 : x < 2 := by nlinarith
  have hs : x + 1 / 2 ≠ 0 := by linarith
  have hneg : ¬ x < 0 := by linarith
  unfold lgamma impl impl1
  rw [if_neg (by rintro ⟨h, _⟩; linarith), if_neg hx, if_neg (by linarith), if_neg hneg, if_neg (by norm_num; linarith),
    if_pos (by norm_num; linarith)]
  set t := x - 9 / 2 / (x + 1 / 2) with ht
  have e : Gamma.div 4.5 (x + 0.5) = some (9 / 2 / (x + 1 / 2)) := by
    rw [Gamma.div_some _ _ (by norm_num; linarith)]
    norm_num
  have t0 : t < 0 := by
    rw [ht, sub_neg, lt_div_iff₀ (by linarith)]
    exact h2
  have t4 : -4 < t := by
    rw [ht, lt_sub_comm, div_lt_iff₀ (by linarith)]
    nlinarith
  have f1 := Int.le_ceil t
  have f2 := Int.ceil_lt_add_one t
  have f1' : t < ⌈t⌉ := lt_of_le_of_ne f1 (hi _)
  have f0 : -4 < ⌈t⌉ := by
    have : ((-4 : ℤ) : ℝ) < ⌈t⌉ := by push_cast; linarith
    exact_mod_cast this
  have f3 : ⌈t⌉ < 1 := by
    have : (⌈t⌉ : ℝ) < ((1 : ℤ) : ℝ) := by push_cast; linarith
    exact_mod_cast this
  refine ⟨⌈t⌉ + 4, t - ((⌈t⌉ + 4 : ℤ) - 7 / 2), by push_cast; linarith, by omega, by omega, by ring, ?_⟩
  rw [e]
  simp only [Option.bind_eq_bind, Option.bind_some]
  rw [impl2b, impl2b1, impl3, if_neg hneg, Gamma.toInt, if_pos t0, show (3.5 : ℝ) = 7 / 2 from by norm_num]

/-- which is off by more than `2.9e-9` for all numbers above and near 1 -/
theorem C153_accuracy_refuted : ∃ δ > 0, ∀ x : ℝ, 1 < x → x < 1 + δ →
    ∃ v, lgamma x = some v ∧ 29 / 10 ^ 10 < |v - Real.log (Real.Gamma x)| := by
  let F : ℝ → ℝ := fun x => horner lgB3 (x - 9 / 2 / (x + 1 / 2) + 1 / 2)
  have hF : ContinuousAt F 1 := by
    have h1 : Continuous (horner lgB3) := by
      unfold horner lgB3
      simp only [List.foldl]
      fun_prop
    refine ContinuousAt.comp (g := horner lgB3) (f := fun x : ℝ => x - 9 / 2 / (x + 1 / 2) + 1 / 2) h1.continuousAt ?_
    have : ContinuousAt (fun x : ℝ => 9 / 2 / (x + 1 / 2)) 1 := ContinuousAt.div (by fun_prop) (by fun_prop) (by norm_num)
    fun_prop
  have hG : ContinuousAt (fun x => Real.log (Real.Gamma x)) 1 := by
    have h1 : ContinuousAt Real.Gamma 1 := by
      refine (Real.differentiableAt_Gamma fun m h => ?_).continuousAt
      have : (0 : ℝ) ≤ m := Nat.cast_nonneg m
      linarith
    exact h1.log (by rw [Real.Gamma_one]; norm_num)
  have hD : ContinuousAt (fun x => |F x - Real.log (Real.Gamma x)|) 1 := (hF.sub hG).abs
  have hv : 29 / 10 ^ 10 < |F 1 - Real.log (Real.Gamma 1)| := by
    rw [Real.Gamma_one, Real.log_one]
    norm_num [F, horner, lgB3]
  have hev := hD.eventually (lt_mem_nhds hv)
  rw [Metric.eventually_nhds_iff] at hev
  obtain ⟨ε, he, hh⟩ := hev
  refine ⟨min ε (1 / 4), by positivity, fun x hx1 hx2 => ?_⟩
  have a1 : x < 1 + ε := lt_of_lt_of_le hx2 (by linarith [min_le_left ε (1 / 4)])
  have a2 : x < 1 + 1 / 4 := lt_of_lt_of_le hx2 (by linarith [min_le_right ε (1 / 4)])
  refine ⟨F x, ?_, hh (by rw [Real.dist_eq, abs_lt]; constructor <;> linarith)⟩
  have hneg : ¬ x < 0 := by linarith
  unfold lgamma impl impl1
  rw [if_neg (by rintro ⟨h, _⟩; linarith), if_neg (by linarith), if_neg (by linarith), if_neg hneg, if_neg (by norm_num; linarith),
    if_pos (by norm_num; linarith), Gamma.div_some _ _ (by norm_num; linarith)]
  simp only [Option.bind_eq_bind, Option.bind_some]
  have et : x - 4.5 / (x + 0.5) = x - 9 / 2 / (x + 1 / 2) := by norm_num
  rw [et]
  have t0 : x - 9 / 2 / (x + 1 / 2) < -1 := by
    have : 5 / 2 < 9 / 2 / (x + 1 / 2) := by
      rw [lt_div_iff₀ (by linarith)]
      linarith
    linarith
  have t4 : -2 < x - 9 / 2 / (x + 1 / 2) := by
    have : 9 / 2 / (x + 1 / 2) < 3 := by
      rw [div_lt_iff₀ (by linarith)]
      linarith
    linarith
  have ek : Gamma.toInt (x - 9 / 2 / (x + 1 / 2)) = -1 := by
    rw [Gamma.toInt, if_pos (by linarith), Int.ceil_eq_iff]
    push_cast
    constructor <;> linarith
  rw [impl2b, impl2b1, impl3, if_neg hneg, ek]
  simp only [F, lgB]
  norm_num

/-- the argument enters the last step only -/
theorem impl1_bind (y w : ℝ) : LogGamma.impl1 y w = (LogGamma.impl1 1 w).bind (impl3 y) := by
  have h3 : ∀ z, impl3 1 z = some z := fun z => if_neg (by norm_num)
  unfold LogGamma.impl1
  by_cases ha : w < 0.5
  · rw [if_pos ha, if_pos ha]
    simp only [impl2a, Option.bind_eq_bind]
    generalize LogGamma.log (horner _ w * w) = l
    cases l <;> simp [h3]
  rw [if_neg ha, if_neg ha]
  split_ifs
  · simp only [impl2b, impl2b1, Option.bind_eq_bind]
    cases Gamma.div 4.5 (w + 0.5) <;> simp [h3]
  · simp [impl2c, h3]
  · simp only [impl2d, Option.bind_eq_bind]
    cases Gamma.div 1 w with
    | none => simp
    | some v =>
      simp only [Option.bind_some]
      cases LogGamma.log w <;> simp [h3]

/-- the formula of reflection: the error for a negative argument is that for the positive one -/
theorem C153_reflection (x v : ℝ) (hx : 0 < x) (h1 : ∀ k : ℤ, x ≠ k) (h : lgamma x = some v) :
    ∃ u, lgamma (-x) = some u ∧ u - Real.log |Real.Gamma (-x)| = -(v - Real.log |Real.Gamma x|) := by
  have hs : Real.sin (x * Real.pi) ≠ 0 := by
    intro h0
    obtain ⟨n, hn⟩ := Real.sin_eq_zero_iff.mp h0
    exact h1 n (mul_right_cancel₀ Real.pi_ne_zero hn).symm
  have hi : ∀ k : ℤ, -x ≠ k := fun k e => h1 (-k) (by push_cast; linarith)
  have e1 : lgamma x = LogGamma.impl1 1 x := by
    unfold lgamma LogGamma.impl
    rw [if_neg (by rintro ⟨h, _⟩; linarith), if_neg (by simpa using h1 1), if_neg (by simpa using h1 2), if_neg (by linarith),
      impl1_bind]
    cases LogGamma.impl1 1 x with
    | none => rfl
    | some z => exact if_neg (by linarith)
  have e2 : lgamma (-x) = impl3 (-x) v := by
    unfold lgamma LogGamma.impl
    rw [if_neg (by rintro ⟨_, k, e⟩; exact hi k e), if_neg (by simpa using hi 1), if_neg (by simpa using hi 2), if_pos (by linarith),
      impl1_bind, neg_neg, ← e1, h]
    rfl
  have ea : |(-x) * Real.sin (-x * Real.pi)| = x * |Real.sin (x * Real.pi)| := by
    rw [neg_mul (x) Real.pi, Real.sin_neg, neg_mul_neg, abs_mul, abs_of_pos hx]
  have hp : 0 < x * |Real.sin (x * Real.pi)| := mul_pos hx (abs_pos.mpr hs)
  have e3 : impl3 (-x) v = some (Real.log (Real.pi / (x * |Real.sin (x * Real.pi)|)) - v) := by
    rw [impl3, if_pos (by linarith), ea, Gamma.div_some _ _ hp.ne']
    simp only [Option.bind_eq_bind, Option.bind_some, LogGamma.log]
    rw [if_pos (div_pos Real.pi_pos hp)]
    rfl
  refine ⟨_, e2.trans e3, ?_⟩
  have g1 : Real.Gamma (1 - x) = -x * Real.Gamma (-x) := by
    have := Real.Gamma_add_one (s := -x) (by linarith)
    rw [← this]
    congr 1
    ring
  have g2 := Real.Gamma_mul_Gamma_one_sub x
  rw [g1] at g2
  have g0 : 0 < Real.Gamma x := Real.Gamma_pos_of_pos hx
  have g3 : Real.Gamma (-x) ≠ 0 := by
    intro h0
    rw [h0] at g2
    simp only [mul_zero] at g2
    exact (div_ne_zero Real.pi_ne_zero (by rw [mul_comm]; exact hs)) g2.symm
  have g4 : Real.pi / (x * |Real.sin (x * Real.pi)|) = |Real.Gamma x| * |Real.Gamma (-x)| := by
    have := congrArg abs g2
    rw [abs_mul, abs_mul, abs_neg, abs_of_pos hx, abs_div, abs_of_pos Real.pi_pos, mul_comm Real.pi x] at this
    rw [← div_div, div_right_comm, ← this]
    field_simp
  rw [g4, Real.log_mul (abs_ne_zero.mpr g0.ne') (abs_ne_zero.mpr g3)]
  ring

example : ∃ u, lgamma (-(5 / 2)) = some u ∧
    ∃ v, lgamma (5 / 2) = some v ∧ u - Real.log |Real.Gamma (-(5 / 2))| = -(v - Real.log |Real.Gamma (5 / 2)|) := by
  have hk : ∀ k : ℤ, (5 / 2 : ℝ) ≠ k := by
    intro k h
    have : (5 : ℝ) = ((2 * k : ℤ) : ℝ) := by push_cast; linarith
    have : (5 : ℤ) = 2 * k := by exact_mod_cast this
    omega
  obtain ⟨k, u, _, _, h | h⟩ := C153_piece_partial (5 / 2) (by norm_num) (by norm_num) (by norm_num) (by norm_num)
  · obtain ⟨u', a, b⟩ := C153_reflection (5 / 2) _ (by norm_num) hk h.2.2.2
    exact ⟨u', a, _, h.2.2.2, b⟩
  · obtain ⟨u', a, b⟩ := C153_reflection (5 / 2) _ (by norm_num) hk h.2.2.2
    exact ⟨u', a, _, h.2.2.2, b⟩

/-- it is exact at 1 and 2 -/
theorem C153_one_two : lgamma 1 = some (Real.log (Real.Gamma 1)) ∧ lgamma 2 = some (Real.log (Real.Gamma 2)) := by
  have h2 : Real.Gamma 2 = 1 := by
    have := Real.Gamma_add_one (s := 1) one_ne_zero
    rw [Real.Gamma_one, show (1 : ℝ) + 1 = 2 from by norm_num] at this
    rw [this, one_mul]
  constructor
  · rw [Real.Gamma_one, Real.log_one, lgamma, if_neg (by rintro ⟨h, _⟩; linarith), if_pos rfl]
  · rw [h2, Real.log_one, lgamma, if_neg (by rintro ⟨h, _⟩; linarith), if_neg (by norm_num), if_pos rfl]

/-- no results at the poles -/
theorem C153_poles (i : ℕ) : lgamma (-i) = none := by
  rw [lgamma, if_pos ⟨by simp, -i, by simp⟩]

end Sprout
