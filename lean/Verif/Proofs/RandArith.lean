import Mathlib.Analysis.Complex.ExponentialBounds
import Verif.Spec.RandArith

/-! helper lemmas on the instance of real numbers -/

namespace Sprout.RandDist
open Arith

theorem lit_real (q : ℚ) : (lit q : ℝ) = (q : ℝ) := rfl
theorem lt_real (x y : ℝ) : (Arith.lt x y = true) ↔ x < y := by
  show decide _ = true ↔ _
  simp
theorem le_real (x y : ℝ) : (Arith.le x y = true) ↔ x ≤ y := by
  show decide _ = true ↔ _
  simp
theorem floor_real (x : ℝ) : Arith.floor x = (⌊x⌋ : ℝ) := rfl
theorem abs_real (x : ℝ) : Arith.abs x = |x| := rfl
theorem log_real (x : ℝ) : Arith.log x = Real.log x := rfl
theorem exp_real (x : ℝ) : Arith.exp x = Real.exp x := rfl
theorem sqrt_real (x : ℝ) : Arith.sqrt x = Real.sqrt x := rfl

theorem toInt_nonneg (T : IntTy) {x : ℝ} (h : 0 ≤ x) (hl : T.lo ≤ ⌊x⌋) (hh : ⌊x⌋ ≤ T.hi) : toInt T x = some ⌊x⌋ := by
  show (if T.lo ≤ (if 0 ≤ x then ⌊x⌋ else ⌈x⌉) ∧ (if 0 ≤ x then ⌊x⌋ else ⌈x⌉) ≤ T.hi then _ else _) = _
  rw [if_pos h, if_pos ⟨hl, hh⟩]

theorem toInt_int (T : IntTy) (n : ℤ) (h : T.lo ≤ n) (hh : n ≤ T.hi) : toInt T ((n : ℤ) : ℝ) = some n := by
  show (if T.lo ≤ (if 0 ≤ (n : ℝ) then ⌊(n : ℝ)⌋ else ⌈(n : ℝ)⌉) ∧ (if 0 ≤ (n : ℝ) then ⌊(n : ℝ)⌋ else ⌈(n : ℝ)⌉) ≤ T.hi then
    some (if 0 ≤ (n : ℝ) then ⌊(n : ℝ)⌋ else ⌈(n : ℝ)⌉) else none) = _
  simp [h, hh]

theorem toInt_some {T : IntTy} {x : ℝ} {n : ℤ} (h : toInt T x = some n) :
    n = (if 0 ≤ x then ⌊x⌋ else ⌈x⌉) ∧ T.lo ≤ n ∧ n ≤ T.hi := by
  revert h
  show (if T.lo ≤ (if 0 ≤ x then ⌊x⌋ else ⌈x⌉) ∧ (if 0 ≤ x then ⌊x⌋ else ⌈x⌉) ≤ T.hi then
    some (if 0 ≤ x then ⌊x⌋ else ⌈x⌉) else none) = some n → _
  by_cases hc : T.lo ≤ (if 0 ≤ x then ⌊x⌋ else ⌈x⌉) ∧ (if 0 ≤ x then ⌊x⌋ else ⌈x⌉) ≤ T.hi
  · rw [if_pos hc]
    intro e
    injection e with e
    rw [← e]
    exact ⟨rfl, hc⟩
  · rw [if_neg hc]
    intro e
    cases e

theorem cdf_zero (f : ℕ → ℝ) : cdf f 0 = f 0 := by simp [cdf]
theorem cdf_succ (f : ℕ → ℝ) (n : ℕ) : cdf f (n + 1) = cdf f n + f (n + 1) := by
  unfold cdf
  rw [Finset.sum_range_succ]

/-- the value returned by rounds has the properties of a value returned by one round -/
theorem rounds_inv {E : Type} (rnd : E → Option (Option ℤ × E)) (P : ℤ → Prop)
    (h : ∀ e i e', rnd e = some (some i, e') → P i) (e : E) (n : ℤ) (e' : E) (hr : rounds rnd e = some (n, e')) : P n := by
  refine rounds.partial_correctness rnd (motive := fun _ r => P r.1) ?_ e (n, e') hr
  intro f ih e r hr
  rw [Option.bind_eq_bind, Option.bind_eq_some_iff] at hr
  obtain ⟨⟨o, e2⟩, h1, h2⟩ := hr
  cases o with
  | none => exact ih _ _ h2
  | some i =>
    injection h2 with h2
    subst h2
    exact h _ _ _ h1

theorem exp_le_pow (m : ℕ) : Real.exp m ≤ (2718281829 / 10 ^ 9 : ℝ) ^ m := by
  have h := pow_le_pow_left₀ (Real.exp_pos 1).le (le_trans Real.exp_one_lt_d9.le (by norm_num : (2.7182818286 : ℝ) ≤ 2718281829 / 10 ^ 9)) m
  rwa [← Real.exp_nat_mul, mul_one] at h

theorem pow_le_exp (m : ℕ) : (2718281828 / 10 ^ 9 : ℝ) ^ m ≤ Real.exp m := by
  have h := pow_le_pow_left₀ (by norm_num) (le_trans (by norm_num : (2718281828 / 10 ^ 9 : ℝ) ≤ 2.7182818283) Real.exp_one_gt_d9.le) m
  rwa [← Real.exp_nat_mul, mul_one] at h

/-- `m / n ≤ log x` -/
theorem le_log_of (x : ℝ) (hx : 0 < x) (m n : ℕ) (hn : 0 < n) (h : (2718281829 / 10 ^ 9 : ℝ) ^ m ≤ x ^ n) : (m : ℝ) / n ≤ Real.log x := by
  have h1 : (m : ℝ) ≤ Real.log (x ^ n) := by
    rw [Real.le_log_iff_exp_le (by positivity)]
    exact le_trans (exp_le_pow m) h
  rw [Real.log_pow] at h1
  rw [div_le_iff₀ (by exact_mod_cast hn)]
  linarith

/-- `log x ≤ m / n` -/
theorem log_le_of (x : ℝ) (hx : 0 < x) (m n : ℕ) (hn : 0 < n) (h : x ^ n ≤ (2718281828 / 10 ^ 9 : ℝ) ^ m) : Real.log x ≤ (m : ℝ) / n := by
  have h1 : Real.log (x ^ n) ≤ (m : ℝ) := by
    rw [Real.log_le_iff_le_exp (by positivity)]
    exact le_trans h (pow_le_exp m)
  rw [Real.log_pow] at h1
  rw [le_div_iff₀ (by exact_mod_cast hn)]
  linarith

/-- the generator that draws `v`, `w` and then `x` for ever -/
noncomputable def draws (v w x : ℝ) (n : ℕ) : ℝ × ℕ := (if n = 0 then v else if n = 1 then w else x, n + 1)

theorem draws_uniform {v w x : ℝ} (hv : 0 ≤ v ∧ v < 1) (hw : 0 ≤ w ∧ w < 1) (hx : 0 ≤ x ∧ x < 1) : Uniform (draws v w x) := by
  intro n
  unfold draws
  dsimp only
  split
  · exact hv
  · split
    · exact hw
    · exact hx

theorem quantile_exists (f : ℕ → ℝ) (hs : HasSum f 1) (u : ℝ) (hu : u < 1) : ∃ n, Quantile f u n := by
  have ht := hs.tendsto_sum_nat
  have hev := ht.eventually (lt_mem_nhds hu)
  obtain ⟨N, hN⟩ := hev.exists
  have hex : ∃ n, u ≤ cdf f n := by
    rcases N with _ | N
    · by_contra hcon
      push_neg at hcon
      have hle : (1 : ℝ) ≤ u := by
        refine le_of_tendsto ((Filter.tendsto_add_atTop_iff_nat 1).2 ht) (Filter.Eventually.of_forall fun n => ?_)
        exact (hcon n).le
      linarith
    · exact ⟨N, hN.le⟩
  classical
  refine ⟨Nat.find hex, Nat.find_spec hex, fun m hm => ?_⟩
  exact not_le.1 (Nat.find_min hex hm)

theorem toInt_floor_nonneg {T : IntTy} {x : ℝ} {n : ℤ} (h : toInt T x = some n) (hx : 0 ≤ x) : 0 ≤ n := by
  obtain ⟨h1, _⟩ := toInt_some h
  rw [if_pos hx] at h1
  rw [h1]
  exact Int.floor_nonneg.2 hx

end Sprout.RandDist
