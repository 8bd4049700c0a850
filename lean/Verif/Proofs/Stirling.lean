import Mathlib.Analysis.SpecialFunctions.Stirling
import Verif.Spec.Binomial

/-! bounds of the correction of Stirling's formula -/

namespace Sprout.RandDist
open Filter Stirling Topology

theorem correction_eq (k : ℕ) : stirlingCorrection k = Real.log (stirlingSeq (k + 1)) - Real.log Real.pi / 2 := by
  unfold stirlingCorrection
  rw [log_stirlingSeq_formula, Nat.factorial_succ]
  push_cast
  have hk : (0 : ℝ) < k + 1 := by positivity
  rw [Real.log_mul hk.ne' (by positivity), Real.log_mul (by norm_num) Real.pi_pos.ne', Real.log_mul (by norm_num) hk.ne',
    Real.log_div hk.ne' (Real.exp_pos 1).ne', Real.log_exp]
  ring

/-- the partial sums -/
noncomputable def s2 (n : ℝ) : ℝ := 1 / (12 * n) - 1 / (360 * n ^ 3)
noncomputable def s3 (n : ℝ) : ℝ := 1 / (12 * n) - 1 / (360 * n ^ 3) + 1 / (1260 * n ^ 5)

theorem diff_upper (m : ℕ) : Real.log (stirlingSeq (m + 1)) - Real.log (stirlingSeq (m + 2)) ≤ s3 (m + 1) - s3 (m + 2) := by
  have h := log_stirlingSeq_sdiff_hasSum m
  have hm : (0 : ℝ) ≤ m := by positivity
  set y : ℝ := (1 / (2 * ((m + 1 : ℕ) : ℝ) + 1)) ^ 2 with hy
  have hy' : y = 1 / (2 * m + 3) ^ 2 := by rw [hy]; push_cast; rw [div_pow, one_pow]; ring
  have hy0 : 0 ≤ y := by rw [hy']; positivity
  have hy1 : y < 1 := by
    rw [hy', div_lt_one (by positivity)]
    nlinarith
  have hg : HasSum (fun k : ℕ => if k = 0 then y / 3 else if k = 1 then y ^ 2 / 5 else y ^ (k + 1) / 7)
      (y / 3 + y ^ 2 / 5 + y ^ 3 / 7 / (1 - y)) := by
    have g1 := (hasSum_geometric_of_lt_one hy0 hy1).mul_left (y ^ 3 / 7)
    rw [← hasSum_nat_add_iff' 2]
    have e : y / 3 + y ^ 2 / 5 + y ^ 3 / 7 / (1 - y)
        - ∑ i ∈ Finset.range 2, (if i = 0 then y / 3 else if i = 1 then y ^ 2 / 5 else y ^ (i + 1) / 7)
        = y ^ 3 / 7 * (1 - y)⁻¹ := by
      rw [Finset.sum_range_succ, Finset.sum_range_one, div_eq_mul_inv (y ^ 3 / 7)]
      norm_num
    rw [e]
    have e2 : (fun k : ℕ => if k + 2 = 0 then y / 3 else if k + 2 = 1 then y ^ 2 / 5 else y ^ (k + 2 + 1) / 7)
        = fun k : ℕ => y ^ 3 / 7 * y ^ k := by
      funext k
      rw [if_neg (by omega), if_neg (by omega)]
      ring
    rw [e2]
    exact g1
  have hle : Real.log (stirlingSeq (m + 1)) - Real.log (stirlingSeq (m + 2)) ≤ y / 3 + y ^ 2 / 5 + y ^ 3 / 7 / (1 - y) := by
    refine hasSum_le (fun k => ?_) h hg
    rcases k with _ | _ | k
    · norm_num
      linarith
    · norm_num
      linarith
    · rw [if_neg (by omega), if_neg (by omega), div_mul_eq_mul_div, one_mul]
      refine div_le_div_of_nonneg_left (by positivity) (by norm_num) ?_
      push_cast
      have : (0 : ℝ) ≤ k := by positivity
      linarith
  refine le_trans hle ?_
  rw [← sub_nonneg]
  have h1 : 1 - y = 4 * (m + 1) * (m + 2) / (2 * m + 3) ^ 2 := by
    rw [hy', eq_div_iff (by positivity), sub_mul, one_mul, div_mul_cancel₀ _ (by positivity)]
    ring
  have e : s3 (m + 1) - s3 (m + 2) - (y / 3 + y ^ 2 / 5 + y ^ 3 / 7 / (1 - y))
      = (1818 + 7326 * m + 12279 * m ^ 2 + 10959 * m ^ 3 + 5494 * m ^ 4 + 1467 * m ^ 5 + 163 * m ^ 6)
        / (2520 * (m + 1) ^ 5 * (m + 2) ^ 5 * (2 * m + 3) ^ 4) := by
    rw [h1, hy']
    unfold s3
    have p1 : (m : ℝ) + 1 ≠ 0 := by positivity
    have p2 : (m : ℝ) + 2 ≠ 0 := by positivity
    have p3 : 2 * (m : ℝ) + 3 ≠ 0 := by positivity
    field_simp
    ring
  rw [e]
  positivity

theorem diff_lower (m : ℕ) : s2 (m + 1) - s2 (m + 2) ≤ Real.log (stirlingSeq (m + 1)) - Real.log (stirlingSeq (m + 2)) := by
  have h := log_stirlingSeq_sdiff_hasSum m
  have hm : (0 : ℝ) ≤ m := by positivity
  have hle := sum_le_hasSum (Finset.range 2) (fun k _ => by positivity) h
  refine le_trans ?_ hle
  rw [Finset.sum_range_succ, Finset.sum_range_one, ← sub_nonneg]
  have e : 1 / (2 * ((0 + 1 : ℕ) : ℝ) + 1) * ((1 / (2 * ((m + 1 : ℕ) : ℝ) + 1)) ^ 2) ^ (0 + 1)
      + 1 / (2 * ((1 + 1 : ℕ) : ℝ) + 1) * ((1 / (2 * ((m + 1 : ℕ) : ℝ) + 1)) ^ 2) ^ (1 + 1) - (s2 (m + 1) - s2 (m + 2))
      = (63 + 153 * m + 141 * m ^ 2 + 60 * m ^ 3 + 10 * m ^ 4) / (360 * (m + 1) ^ 3 * (m + 2) ^ 3 * (2 * m + 3) ^ 4) := by
    unfold s2
    have p1 : (m : ℝ) + 1 ≠ 0 := by positivity
    have p2 : (m : ℝ) + 2 ≠ 0 := by positivity
    have p3 : 2 * (m : ℝ) + 3 ≠ 0 := by positivity
    push_cast
    rw [show 2 * ((m : ℝ) + 1) + 1 = 2 * m + 3 by ring]
    field_simp
    ring
  rw [e]
  positivity

theorem tendsto_log : Tendsto (fun m : ℕ => Real.log (stirlingSeq (m + 1))) atTop (𝓝 (Real.log Real.pi / 2)) := by
  have h := (tendsto_stirlingSeq_sqrt_pi.comp (tendsto_add_atTop_nat 1)).log (by positivity)
  rw [Real.log_sqrt Real.pi_pos.le] at h
  exact h

theorem tendsto_inv (c : ℝ) (j : ℕ) (hj : j ≠ 0) : Tendsto (fun m : ℕ => 1 / (c * ((m : ℝ) + 1) ^ j)) atTop (𝓝 0) := by
  have h := ((tendsto_one_div_add_atTop_nhds_zero_nat (𝕜 := ℝ)).pow j).const_mul (1 / c)
  rw [zero_pow hj, mul_zero] at h
  refine h.congr fun m => ?_
  rw [div_pow, one_pow, div_mul_div_comm, one_mul]

theorem tendsto_s2 : Tendsto (fun m : ℕ => s2 ((m : ℝ) + 1)) atTop (𝓝 0) := by
  have h := (tendsto_inv 12 1 (by norm_num)).sub (tendsto_inv 360 3 (by norm_num))
  rw [sub_zero] at h
  refine h.congr fun m => ?_
  unfold s2
  rw [pow_one]

theorem tendsto_s3 : Tendsto (fun m : ℕ => s3 ((m : ℝ) + 1)) atTop (𝓝 0) := by
  have h := tendsto_s2.add (tendsto_inv 1260 5 (by norm_num))
  rw [add_zero] at h
  exact h

/-- the correction lies between the partial sums of its asymptotic series -/
theorem correction_le (k : ℕ) : stirlingCorrection k ≤ s3 (k + 1) := by
  have hm : Monotone (fun m : ℕ => Real.log (stirlingSeq (m + 1)) - s3 ((m : ℝ) + 1)) := by
    refine monotone_nat_of_le_succ fun m => ?_
    have := diff_upper m
    rw [show (((m + 1 : ℕ) : ℝ) + 1) = (m : ℝ) + 2 by push_cast; ring]
    linarith
  have h := hm.ge_of_tendsto (tendsto_log.sub tendsto_s3) k
  rw [correction_eq]
  linarith

theorem le_correction (k : ℕ) : s2 (k + 1) ≤ stirlingCorrection k := by
  have hm : Antitone (fun m : ℕ => Real.log (stirlingSeq (m + 1)) - s2 ((m : ℝ) + 1)) := by
    refine antitone_nat_of_succ_le fun m => ?_
    have := diff_lower m
    rw [show (((m + 1 : ℕ) : ℝ) + 1) = (m : ℝ) + 2 by push_cast; ring]
    linarith
  have h := hm.le_of_tendsto (tendsto_log.sub tendsto_s2) k
  rw [correction_eq]
  linarith

end Sprout.RandDist
