import Verif.Spec.Normal
import Verif.Model.Normal
import Verif.Proofs.BoxMuller
import Verif.Proofs.RandArith

/-!
# C132: normal distribution

Statements over every `Arith R` hold for every arithmetic, among them that of `double`; the others are
about exact real numbers.
-/

namespace Sprout
open RandDist RandDist.Normal Arith MeasureTheory ProbabilityTheory

/-- In every arithmetic both versions return the same value, engine and distribution. -/
theorem C132_agree {R E : Type} [Arith R] (U : E → R × E) (d : NDist R) (e : E) : callConst U d e = call U d e := by
  rcases d with ⟨_, _, _, _, _, v⟩
  cases v <;> rfl

theorem normal_make {mean sigma : ℝ} {d : NDist ℝ} (h : make mean sigma = some d) :
    0 ≤ sigma ∧ d.mean = mean ∧ d.sigma = sigma ∧ d.valid = false := by
  unfold make at h
  split at h
  · rename_i hc
    rw [le_real, lit_real] at hc
    push_cast at hc
    injection h with h
    subst h
    exact ⟨hc, rfl, rfl, rfl⟩
  · cases h

/-- the first value of a pair -/
theorem normal_call_first {E : Type} (U : E → ℝ × E) (d : NDist ℝ) (hv : d.valid = false) (e : E) :
    ∃ d', call U d e = (normalValue d.mean d.sigma (U (U e).2).1 (Real.cos (2 * Real.pi * (U e).1)), (U (U e).2).2, d') ∧
      d'.valid = true ∧ d'.mean = d.mean ∧ d'.sigma = d.sigma ∧ d'.r1 = (U e).1 ∧
      d'.rho = Real.sqrt (-2 * Real.log (1 - (U (U e).2).1)) := by
  unfold call
  rw [hv]
  refine ⟨{ d with r1 := (U e).1, r2 := (U (U e).2).1, rho := sqrt (-lit 2 * log (lit 1 - (U (U e).2).1)), valid := true },
    ?_, rfl, rfl, rfl, rfl, ?_⟩
  · refine Prod.ext ?_ rfl
    show Real.sqrt (-((2 : ℚ) : ℝ) * Real.log (((1 : ℚ) : ℝ) - (U (U e).2).1)) * Real.cos (2 * Real.pi * (U e).1) * d.sigma + d.mean = _
    unfold normalValue
    push_cast
    ring
  · show Real.sqrt (-((2 : ℚ) : ℝ) * Real.log (((1 : ℚ) : ℝ) - (U (U e).2).1)) = _
    push_cast
    rfl

/-- the second value of a pair -/
theorem normal_call_second {E : Type} (U : E → ℝ × E) (d : NDist ℝ) (hv : d.valid = true) (e : E) :
    call U d e = (d.mean + d.sigma * (d.rho * Real.sin (2 * Real.pi * d.r1)), e, { d with valid := false }) := by
  unfold call
  rw [hv]
  refine Prod.ext ?_ rfl
  show d.rho * Real.sin (2 * Real.pi * d.r1) * d.sigma + d.mean = _
  ring

/-- Successive calls of a distribution without a stored value return pairs, each made of two new draws. -/
theorem C132_run {E : Type} (U : E → ℝ × E) (d : NDist ℝ) (hv : d.valid = false) (e : E) (n : ℕ) :
    values (call U) d e (2 * n) = normalPairs d.mean d.sigma U e n := by
  induction n generalizing d e with
  | zero => rfl
  | succ n ih =>
    obtain ⟨d1, h1, hv1, hm, hs, hr, hrho⟩ := normal_call_first U d hv e
    have h2 := normal_call_second U d1 hv1 (U (U e).2).2
    rw [show 2 * (n + 1) = 2 * n + 1 + 1 by ring, values, values, h1]
    dsimp only
    rw [h2]
    dsimp only
    rw [ih _ rfl]
    show _ = normalValue _ _ _ _ :: normalValue _ _ _ _ :: _
    rw [hm, hs, hr, hrho]
    rfl

/-- From two independent uniform draws the first two calls return two independent values of the normal
distribution with the mean and the standard deviation given. -/
theorem C132_law (mean sigma : ℝ) (d : NDist ℝ) (hd : make mean sigma = some d) :
    ∃ z : ℝ × ℝ → ℝ × ℝ, (∀ p, values (call (draws p.1 p.2 0)) d 0 2 = [(z p).1, (z p).2]) ∧
      twoDraws.map z = twoNormal mean sigma := by
  obtain ⟨h0, hm, hs, hv⟩ := normal_make hd
  refine ⟨Prod.map (fun x => sigma * x + mean) (fun x => sigma * x + mean) ∘ BoxMuller.pair, ?_, ?_⟩
  · intro p
    have h := C132_run (draws p.1 p.2 0) d hv 0 1
    rw [mul_one] at h
    rw [h, hm, hs]
    show [normalValue mean sigma p.2 (Real.cos (2 * Real.pi * p.1)), normalValue mean sigma p.2 (Real.sin (2 * Real.pi * p.1))] = _
    unfold normalValue
    rw [add_comm mean, add_comm mean]
    rfl
  · have haff : Measurable fun x : ℝ => sigma * x + mean := by fun_prop
    have hae : twoDraws = volume.restrict (Set.Ioo (0 : ℝ) 1 ×ˢ Set.Ioo (0 : ℝ) 1) := by
      unfold twoDraws
      rw [Measure.volume_eq_prod, ← Measure.prod_restrict, ← Measure.prod_restrict, restrict_Ioo_eq_restrict_Ico]
    have hg : (gaussianReal 0 1).map (fun x : ℝ => sigma * x + mean) = gaussianReal mean ⟨sigma ^ 2, sq_nonneg _⟩ := by
      have e : (fun x : ℝ => sigma * x + mean) = (· + mean) ∘ (sigma * ·) := rfl
      rw [e, ← Measure.map_map (by fun_prop) (by fun_prop), gaussianReal_map_const_mul, gaussianReal_map_add_const]
      congr 1
      · ring
      · rw [mul_one]
        rfl
    rw [← Measure.map_map (haff.prodMap haff) BoxMuller.measurable_pair, hae, BoxMuller.law,
      ← Measure.map_prod_map _ _ haff haff, hg]
    rfl

/-- In every arithmetic: after `reset` all values are those of a new distribution. -/
theorem C132_reset {R E : Type} [Arith R] (U : E → R × E) (x y : NDist R) (hm : x.mean = y.mean) (hs : x.sigma = y.sigma)
    (hy : y.valid = false) (e : E) (n : ℕ) : values (call U) (reset x) e n = values (call U) y e n := by
  cases n with
  | zero => rfl
  | succ n =>
    have h : call U (reset x) e = call U y e := by
      rcases x with ⟨m, s, _, _, _, _⟩
      rcases y with ⟨m', s', _, _, _, _⟩
      dsimp only at hm hs hy
      subst hm hs hy
      rfl
    rw [values, values, h]

/-- In every arithmetic: `param(parm)` also discards a stored value. -/
theorem C132_param {R E : Type} [Arith R] (U : E → R × E) (x y : NDist R) (hy : y.valid = false) (e : E) (n : ℕ) :
    values (call U) (setParam x y.mean y.sigma) e n = values (call U) y e n :=
  C132_reset U { x with mean := y.mean, sigma := y.sigma } y rfl rfl hy e n

open Classical in
/-- distributions are equal exactly if they have the same parameters and generate the same values -/
def NormalEqFull : Prop := ∀ x y : NDist ℝ, eqv (fun a b => decide (a = b)) x y = true ↔
  (x.mean = y.mean ∧ x.sigma = y.sigma ∧ ∀ (U : ℕ → ℝ × ℕ) e n, values (call U) x e n = values (call U) y e n)

open Classical in
/-- Draws that are not used any more are compared: a distribution that was reset is not equal to a new one. -/
theorem C132_eq_refuted : ¬ NormalEqFull := by
  intro h
  have h1 := (h (reset ⟨0, 1, 1 / 2, 1 / 2, 1, true⟩) ⟨0, 1, 0, 0, 0, false⟩).2
    ⟨rfl, rfl, fun U e n => C132_reset U ⟨0, 1, 1 / 2, 1 / 2, 1, true⟩ ⟨0, 1, 0, 0, 0, false⟩ rfl rfl rfl e n⟩
  unfold eqv reset at h1
  norm_num at h1

open Classical in
/-- Equal distributions generate the same values. -/
theorem C132_eq_partial {E : Type} (U : E → ℝ × E) (x y : NDist ℝ) (h : eqv (fun a b => decide (a = b)) x y = true) (e : E) (n : ℕ) :
    values (call U) x e n = values (call U) y e n := by
  rcases x with ⟨a, b, c, d, f, g⟩
  rcases y with ⟨a', b', c', d', f', g'⟩
  simp only [eqv, Bool.and_eq_true, decide_eq_true_eq, beq_iff_eq] at h
  obtain ⟨⟨⟨⟨rfl, rfl⟩, rfl⟩, rfl⟩, rfl, rfl⟩ := h
  rfl

/-- mean 10, deviation 3, draws 1/4 and 0: the radius is 0, both values are 10 -/
example : values (call (draws (1 / 4) 0 0)) (⟨10, 3, 0, 0, 0, false⟩ : NDist ℝ) 0 2 = [10, 10] := by
  have h := C132_run (draws (1 / 4) 0 0) ⟨10, 3, 0, 0, 0, false⟩ rfl 0 1
  rw [mul_one] at h
  rw [h]
  show [normalValue 10 3 0 _, normalValue 10 3 0 _] = _
  simp [normalValue]

/-- mean 10, deviation 3, draws 1/4 and 1 - exp (-2): the radius is 2, the angle a quarter -/
example : values (call (draws (1 / 4) (1 - Real.exp (-2)) 0)) (⟨10, 3, 0, 0, 0, false⟩ : NDist ℝ) 0 2 = [10, 16] := by
  have h := C132_run (draws (1 / 4) (1 - Real.exp (-2)) 0) ⟨10, 3, 0, 0, 0, false⟩ rfl 0 1
  rw [mul_one] at h
  rw [h]
  show [normalValue 10 3 (1 - Real.exp (-2)) (Real.cos (2 * Real.pi * (1 / 4))),
    normalValue 10 3 (1 - Real.exp (-2)) (Real.sin (2 * Real.pi * (1 / 4)))] = _
  unfold normalValue
  have hs : Real.sqrt (-2 * Real.log (1 - (1 - Real.exp (-2)))) = 2 := by
    rw [show 1 - (1 - Real.exp (-2)) = Real.exp (-2) by ring, Real.log_exp, show (-2 * -2 : ℝ) = 2 ^ 2 by norm_num,
      Real.sqrt_sq (by norm_num)]
  rw [hs, show 2 * Real.pi * (1 / 4) = Real.pi / 2 by ring, Real.cos_pi_div_two, Real.sin_pi_div_two]
  norm_num

end Sprout
