import Mathlib.Analysis.SpecialFunctions.Exponential
import Mathlib.Analysis.Complex.ExponentialBounds
import Verif.Proofs.RandArith
import Verif.Model.Poisson

/-! helper lemmas on `poisson_distribution` in exact real arithmetic -/

namespace Sprout.RandDist.Poisson
open Arith

theorem poissonProb_succ (mean : ℝ) (k : ℕ) :
    poissonProb mean (k + 1) = poissonProb mean k * mean / ((k + 1 : ℕ) : ℝ) := by
  unfold poissonProb
  rw [Nat.factorial_succ, pow_succ]
  have : ((k.factorial : ℕ) : ℝ) ≠ 0 := by positivity
  have : ((k + 1 : ℕ) : ℝ) ≠ 0 := by positivity
  push_cast at *
  field_simp

/-- loop invariant: `u` has lost the probabilities of the numbers below `x` -/
theorem invertLoop_spec (T : IntTy) (mean u : ℝ) (n : ℕ) (hn : (n : ℤ) ≤ T.hi)
    (hq : Quantile (poissonProb mean) u n) :
    ∀ x : ℕ, x ≤ n → invertLoop T mean (u - ∑ i ∈ Finset.range x, poissonProb mean i) (x : ℤ) (poissonProb mean x) = some (n : ℤ) := by
  intro x hx
  obtain ⟨d, rfl⟩ := Nat.exists_eq_add_of_le hx
  induction d generalizing x with
  | zero =>
    rw [invertLoop.eq_def, if_neg]
    · rfl
    · rw [lt_real]
      have h := hq.1
      unfold cdf at h
      rw [Finset.sum_range_succ] at h
      linarith
  | succ d ih =>
    have h := hq.2 x (by omega)
    unfold cdf at h
    rw [Finset.sum_range_succ] at h
    rw [invertLoop.eq_def, if_pos (by rw [lt_real]; linarith)]
    have e1 : incr T (x : ℤ) = some ((x + 1 : ℕ) : ℤ) := by
      unfold incr
      rw [if_pos (by push_cast at hn; omega)]
      push_cast
      rfl
    rw [e1]
    show invertLoop T mean _ _ _ = _
    have e2 : u - ∑ i ∈ Finset.range x, poissonProb mean i - poissonProb mean x
        = u - ∑ i ∈ Finset.range (x + 1), poissonProb mean i := by
      rw [Finset.sum_range_succ]; ring
    have e3 : poissonProb mean x * mean / (lit (((x + 1 : ℕ) : ℤ) : ℚ) : ℝ) = poissonProb mean (x + 1) := by
      rw [poissonProb_succ, lit_real]
      push_cast
      rfl
    have key := ih (x + 1) (by push_cast at *; omega) (by rw [show x + 1 + d = x + (d + 1) by omega]; exact hq) (by omega)
    rw [show x + 1 + d = x + (d + 1) by omega] at key
    rw [← key]
    show invertLoop T mean (_ - _ - _) _ (_ * _ / _) = _
    rw [e2, e3]

theorem poisson_hasSum (mean : ℝ) : HasSum (poissonProb mean) 1 := by
  have h := NormedSpace.expSeries_div_hasSum_exp (𝔸 := ℝ) mean
  rw [← Real.exp_eq_exp_ℝ] at h
  have h2 := h.mul_left (Real.exp (-mean))
  rw [← Real.exp_add, neg_add_cancel, Real.exp_zero] at h2
  have e : poissonProb mean = fun i => Real.exp (-mean) * (mean ^ i / (i.factorial : ℝ)) := by
    funext i
    unfold poissonProb
    ring
  rw [e]
  exact h2

/-- the members for a mean of at least ten -/
structure Good (d : PDist ℝ) (s : ℝ) : Prop where
  hs : 3 ≤ s
  mean : d.mean = s * s
  b : d.ptrd.b = 931 / 1000 + 253 / 100 * s
  a : d.ptrd.a = -(59 / 1000) + 2483 / 100000 * d.ptrd.b
  v_r : d.ptrd.v_r = 9277 / 10000 - 36224 / 10000 / (d.ptrd.b - 2)
  smu : d.ptrd.smu = s
  inv_alpha : d.ptrd.inv_alpha = 11239 / 10000 + 11328 / 10000 / (d.ptrd.b - 34 / 10)

theorem make_good {mean : ℝ} {d : PDist ℝ} (h : make mean = some d) (hm : 10 ≤ mean) :
    Good d (Real.sqrt mean) ∧ useInversion d.mean = false := by
  unfold make at h
  rw [if_pos (by rw [lt_real, lit_real]; push_cast; linarith)] at h
  injection h with h
  have hu : useInversion mean = false := by
    unfold useInversion
    rw [← Bool.not_eq_true, lt_real, lit_real]
    push_cast
    linarith
  have hs : 3 ≤ Real.sqrt mean := by
    rw [show (3 : ℝ) = Real.sqrt (3 ^ 2) by rw [Real.sqrt_sq (by norm_num)]]
    exact Real.sqrt_le_sqrt (by linarith)
  have hp : initPtrd mean = initPtrd1 (Real.sqrt mean) := by
    unfold initPtrd
    rw [hu]
    rfl
  subst h
  refine ⟨⟨hs, ?_, ?_, ?_, ?_, ?_, ?_⟩, hu⟩
  · exact (Real.mul_self_sqrt (by linarith)).symm
  all_goals
    simp only [hp, initPtrd1, lit_real] <;> push_cast <;> rfl

theorem Good.v_r_pos {d : PDist ℝ} {s : ℝ} (g : Good d s) : 3 / 10 ≤ d.ptrd.v_r := by
  have hs := g.hs
  rw [g.v_r, g.b]
  have hb : 36224 / 10000 / (931 / 1000 + 253 / 100 * s - 2) ≤ 6277 / 10000 := by
    rw [div_le_iff₀ (by linarith)]
    linarith
  linarith

theorem Good.direct_nonneg {d : PDist ℝ} {s : ℝ} (g : Good d s) {u : ℝ} (h1 : -(43 / 100) ≤ u) (h2 : u ≤ 43 / 100) :
    0 ≤ (2 * d.ptrd.a / (1 / 2 - |u|) + d.ptrd.b) * u + d.mean + 445 / 1000 := by
  have hs := g.hs
  have hb : 0 ≤ d.ptrd.b := by rw [g.b]; linarith
  have ha : 0 ≤ d.ptrd.a := by rw [g.a, g.b]; linarith
  have hu : |u| ≤ 43 / 100 := abs_le.2 ⟨h1, h2⟩
  have hq : 2 * d.ptrd.a / (1 / 2 - |u|) ≤ 2 * d.ptrd.a / (7 / 100) :=
    div_le_div_of_nonneg_left (by linarith) (by norm_num) (by linarith)
  have hq0 : 0 ≤ 2 * d.ptrd.a / (1 / 2 - |u|) := div_nonneg (by linarith) (by linarith)
  rw [g.mean]
  by_cases h0 : 0 ≤ u
  · have := mul_nonneg (add_nonneg hq0 hb) h0
    nlinarith
  · push_neg at h0
    have h3 : (2 * d.ptrd.a / (1 / 2 - |u|) + d.ptrd.b) * (-u) ≤ (2 * d.ptrd.a / (7 / 100) + d.ptrd.b) * (43 / 100) :=
      mul_le_mul (by linarith) (by linarith) (by linarith) (by linarith [div_nonneg (by linarith : (0 : ℝ) ≤ 2 * d.ptrd.a) (by norm_num : (0 : ℝ) ≤ 7 / 100)])
    have h4 : (2 * d.ptrd.a / (7 / 100) + d.ptrd.b) * (43 / 100) ≤ 186 / 100 * s := by
      rw [g.a, g.b]
      linarith
    nlinarith

theorem accept_nonneg (T : IntTy) (d : PDist ℝ) (k v : ℝ) (h : accept T d k v = some true) : 0 ≤ k := by
  unfold accept at h
  split at h
  · rename_i hc
    rw [Bool.and_eq_true, le_real, lit_real] at hc
    have := hc.1
    push_cast at this
    linarith
  · split at h
    · rename_i hc
      rw [le_real, lit_real] at hc
      push_cast at hc
      exact hc
    · cases h

theorem tail_nonneg (T : IntTy) (d : PDist ℝ) (u v : ℝ) (n : ℤ) (h : tail T d u v = some (some n)) : 0 ≤ n ∧ n ≤ T.hi := by
  unfold tail at h
  dsimp only at h
  split at h
  · cases h
  · rw [Option.bind_eq_bind, Option.bind_eq_some_iff] at h
    obtain ⟨acc, h1, h2⟩ := h
    cases acc
    · cases h2
    · rw [if_pos rfl, Option.bind_eq_bind, Option.bind_eq_some_iff] at h2
      obtain ⟨i, h3, h4⟩ := h2
      injection h4 with h4
      injection h4 with h4
      subst h4
      exact ⟨toInt_floor_nonneg h3 (accept_nonneg _ _ _ _ h1), (toInt_some h3).2.2⟩

/-- a larger type gives the same value -/
theorem invertLoop_mono {R : Type} [Arith R] {T T' : IntTy} (hT : T.hi ≤ T'.hi) (mean u : R) (x : ℤ) (p : R) (n : ℤ)
    (h : invertLoop T mean u x p = some n) : invertLoop T' mean u x p = some n := by
  refine invertLoop.partial_correctness T mean (motive := fun u x p r => invertLoop T' mean u x p = some r) ?_ u x p n h
  intro f ih u x p r hr
  rw [invertLoop.eq_def]
  split at hr
  · rename_i hc
    rw [if_pos hc]
    rw [Option.bind_eq_bind, Option.bind_eq_some_iff] at hr
    obtain ⟨x', h1, h2⟩ := hr
    unfold incr at h1
    split at h1
    · injection h1 with h1
      subst h1
      have e : incr T' x = some (x + 1) := if_pos (by omega)
      rw [e]
      exact ih _ _ _ _ h2
    · cases h1
  · rename_i hc
    rw [if_neg hc]
    exact hr

theorem useInversion_of {mean : ℝ} {d : PDist ℝ} (hd : make mean = some d) (hm : mean < 10) : useInversion d.mean = true := by
  unfold make at hd
  split at hd
  · injection hd with hd
    rw [← hd]
    unfold useInversion
    rw [lt_real, lit_real]
    push_cast
    exact hm
  · cases hd

theorem call_mono {R E : Type} [Arith R] {T T' : IntTy} (hT : T.hi ≤ T'.hi) {U : E → R × E} {d : PDist R} {e : E} {r : ℤ × E}
    (hu : useInversion d.mean = true) (h : call T U d e = some r) : call T' U d e = some r := by
  unfold call at h ⊢
  rw [if_pos hu] at h ⊢
  unfold invert at h ⊢
  dsimp only at h ⊢
  rw [Option.bind_eq_bind, Option.bind_eq_some_iff] at h
  obtain ⟨x, h1, h2⟩ := h
  rw [invertLoop_mono hT _ _ _ _ _ h1]
  exact h2

end Sprout.RandDist.Poisson
