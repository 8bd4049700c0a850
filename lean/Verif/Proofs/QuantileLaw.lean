import Mathlib.MeasureTheory.Measure.Lebesgue.Basic
import Verif.Proofs.RandArith

/-! the law of the quantile of a uniform draw -/

namespace Sprout.RandDist
open MeasureTheory Set

theorem quantile_unique {f : ℕ → ℝ} {u : ℝ} {n m : ℕ} (h : Quantile f u n) (h' : Quantile f u m) : n = m := by
  rcases lt_trichotomy n m with hl | rfl | hl
  · exact absurd h.1 (not_le.2 (h'.2 n hl))
  · rfl
  · exact absurd h'.1 (not_le.2 (h.2 m hl))

theorem cdf_mono {f : ℕ → ℝ} (hf : ∀ k, 0 ≤ f k) : Monotone (cdf f) :=
  monotone_nat_of_le_succ fun n => by rw [cdf_succ]; linarith [hf (n + 1)]

/-- a uniform draw has the quantile `n` with the probability `f n` -/
theorem quantile_volume (f : ℕ → ℝ) (hf : ∀ k, 0 ≤ f k) (hs : HasSum f 1) (n : ℕ) :
    volume {u : ℝ | u ∈ Ico 0 1 ∧ Quantile f u n} = ENNReal.ofReal (f n) := by
  have h1 : ∀ k, cdf f k ≤ 1 := fun k => sum_le_hasSum _ (fun i _ => hf i) hs
  have main : ∀ a b : ℝ, 0 ≤ a → b ≤ 1 → b - a = f n → Ioo a b ⊆ {u : ℝ | u ∈ Ico 0 1 ∧ Quantile f u n} →
      {u : ℝ | u ∈ Ico 0 1 ∧ Quantile f u n} ⊆ Icc a b → volume {u : ℝ | u ∈ Ico 0 1 ∧ Quantile f u n} = ENNReal.ofReal (f n) := by
    intro a b _ _ hab hl hu
    refine le_antisymm ?_ ?_
    · rw [← hab, ← Real.volume_Icc]
      exact measure_mono hu
    · rw [← hab, ← Real.volume_Ioo]
      exact measure_mono hl
  cases n with
  | zero =>
    refine main 0 (f 0) le_rfl ?_ (sub_zero _) ?_ ?_
    · have := h1 0
      rwa [cdf_zero] at this
    · rintro u ⟨hu0, hu1⟩
      have := h1 0
      rw [cdf_zero] at this
      refine ⟨⟨hu0.le, by linarith⟩, ?_, fun m hm => absurd hm (Nat.not_lt_zero _)⟩
      rw [cdf_zero]
      exact hu1.le
    · rintro u ⟨⟨hu0, _⟩, hq, _⟩
      rw [cdf_zero] at hq
      exact ⟨hu0, hq⟩
  | succ n =>
    refine main (cdf f n) (cdf f (n + 1)) (Finset.sum_nonneg fun i _ => hf i) (h1 _) (by rw [cdf_succ]; ring) ?_ ?_
    · rintro u ⟨hu0, hu1⟩
      have hc : 0 ≤ cdf f n := Finset.sum_nonneg fun i _ => hf i
      refine ⟨⟨by linarith, lt_of_lt_of_le hu1 (h1 _)⟩, hu1.le, fun m hm => ?_⟩
      exact lt_of_le_of_lt (cdf_mono hf (Nat.lt_succ_iff.1 hm)) hu0
    · rintro u ⟨_, hq, hq'⟩
      exact ⟨(hq' n (Nat.lt_succ_self n)).le, hq⟩

end Sprout.RandDist
