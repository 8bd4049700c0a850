import Verif.Model.Asin
import Verif.Proofs.ErfPoly
import Mathlib.Analysis.SpecialFunctions.Trigonometric.InverseDeriv
import Mathlib.Analysis.SpecialFunctions.Sqrt
import Mathlib.Analysis.Calculus.Deriv.MeanValue
import Mathlib.Tactic.LinearCombination

/-!
# The polynomials of `asin` against the arc sine

The derivative of the arc sine is `1 / √(1 - x²)`. So the square of the derivative of an approximation, times `1 - x²`, is close to one; this is a
statement on polynomials, and is checked as in `Verif/Proofs/ErfPoly.lean`.
-/

namespace Sprout.Asin

open ErfPoly
open Gamma (horner)

/-- the derivative of the polynomial up to 1/2, in `x²` -/
def pC : List ℤ := [
  10000000000000000000000000, 4999999999999676986139640, 3750000000148480561961765, 3124999980079711458787531, 2734376220737607814195761,
  2460896137333381227811188, 2256715720954230242572411, 2083281152353421624548335, 2065226177978975027821511, 1256910138743172488461425,
  4051798522280011753185222, -3648270142734929894472335, 7916459644821677026020200]

/-- the expansion of its difference -/
def dC : List ℤ := [
  -1119061032781339, -2234097403931708, -2234105576960500, -2220160903359212, -2211384385633637, -2225008061259884, -2208771606705430,
  -2176043785475265, -2145637369680825, -2053337016683722, -1838860717181481, -1666117842405440, -1578544723603427, -787476737478741,
  -27185935960913, -1383347470108, -78122274293, -4640158227, -284146370, -17765732, -1127864, -72451, -4697, -306, -20, -1]

/-- `R - 2 (1 - x) R'` for the polynomial `-R` from 1/2 -/
def pT : List ℤ := [
  19999948659206852727322003, -9999016783801765579133823, 7491254138273217274124208, -6201974816755197068585276, 5286111370521658487767100,
  -4409670738125089832755468, 3407854611661583331912713, -2300820108804343260340953, 1279266044454437162840037, -550382566153013029730403,
  169518599748648984027925, -32982531998507458141406, 3029745502473240620150]

/-- the expansion of its difference -/
def dT : List ℤ := [
  -480440299716840, 959794385222027, -947852508165421, 937307653428545, -933728871757190, 900547021736561, -867150163461610,
  870869522041201, -825413096730172, 748792384077894, -778177410476642, 747105845327490, -521996598691833, 853051059641413, -28838869324099,
  1459639180416, -82306143569, 4888725207, -299599625, 18754595, -1192410, 76727, -4984, 326, -21, 1]

/-- the scaled difference of `p² (1 ± x)` and `m` -/
def gD (m e a b q : ℤ) (p : List ℤ) : List ℤ := psub (mulLin (q + e * a) (e * b) (psq (comp a b q p))) [m * q ^ 27 * 10 ^ 50]

/-- the check -/
def checkD (m e a b q : ℤ) (p ds : List ℤ) (E : ℕ) : Bool :=
  let M : ℕ := m.toNat * q.toNat ^ 27 * 10 ^ 50
  decide (asum (psub (smul (10 ^ 30) (gD m e a b q p)) (smul M (cheb ds [1] [0, 1]))) + M * asum ds ≤ M * E)

theorem checkD_sound (m : ℕ) (hm : 0 < m) (e a b : ℤ) (q : ℕ) (hq : 0 < q) (p ds : List ℤ) (hp : p.length = 13) (E : ℕ)
    (h : checkD m e a b q p ds E = true) (y : ℝ) (hy : |y| ≤ 1) :
    |(ev p ((a + b * y) / q) / 10 ^ 25) ^ 2 * (1 + e * ((a + b * y) / q)) / m - 1| ≤ (E : ℝ) / 10 ^ 30 := by
  simp only [checkD, Int.toNat_natCast, decide_eq_true_eq] at h
  have hqr : ((q : ℤ) : ℝ) ≠ 0 := by
    have : (q : ℝ) ≠ 0 := by exact_mod_cast hq.ne'
    exact_mod_cast this
  have hqr' : (q : ℝ) ≠ 0 := by exact_mod_cast hq.ne'
  have hmr : (m : ℝ) ≠ 0 := by exact_mod_cast hm.ne'
  refine bound_of_check (gD m e a b q p) ds (m * q ^ 27 * 10 ^ 50) E (by positivity) _ y hy ?_ h
  rw [gD, ev_psub, ev_mulLin, psq, ev_pmul, ev_comp a b q hqr, hp]
  simp only [ev]
  push_cast
  field_simp
  ring

theorem checkC : checkD 1 (-1) 125 125 999 pC dC (27 * 10 ^ 15) = true := by decide +kernel

theorem checkT : checkD 4 1 750 251 1001 pT dT (12 * 10 ^ 15) = true := by decide +kernel

theorem boundC (u : ℝ) (h0 : 0 ≤ u) (h1 : u ≤ 1 / 4) : |(ev pC u / 10 ^ 25) ^ 2 * (1 - u) - 1| ≤ 27 / 10 ^ 15 := by
  have := checkD_sound 1 one_pos (-1) 125 125 999 (by norm_num) pC dC rfl _ checkC ((999 * u - 125) / 125) (by rw [abs_le]; constructor <;> linarith)
  have e : (((125 : ℤ) : ℝ) + ((125 : ℤ) : ℝ) * ((999 * u - 125) / 125)) / (999 : ℕ) = u := by push_cast; ring
  rw [e] at this
  push_cast at this
  rw [div_one, neg_one_mul, ← sub_eq_add_neg] at this
  refine this.trans (by norm_num)

theorem boundT (x : ℝ) (h0 : 1 / 2 ≤ x) (h1 : x ≤ 1) : |(ev pT x / 10 ^ 25) ^ 2 * (1 + x) / 4 - 1| ≤ 12 / 10 ^ 15 := by
  have := checkD_sound 4 (by norm_num) 1 750 251 1001 (by norm_num) pT dT rfl _ checkT ((1001 * x - 750) / 251)
    (by rw [abs_le]; constructor <;> linarith)
  have e : (((750 : ℤ) : ℝ) + ((251 : ℤ) : ℝ) * ((1001 * x - 750) / 251)) / (1001 : ℕ) = x := by push_cast; ring
  rw [e] at this
  push_cast at this
  rw [one_mul] at this
  refine this.trans (by norm_num)

/-- near one, a number is as close as its square -/
theorem root_close (s δ : ℝ) (hs : 0 ≤ s) (h : |s ^ 2 - 1| ≤ δ) : |s - 1| ≤ δ := by
  have e : s ^ 2 - 1 = (s - 1) * (s + 1) := by ring
  rw [e, abs_mul, abs_of_nonneg (by linarith : 0 ≤ s + 1)] at h
  have := mul_le_mul_of_nonneg_left (by linarith : (1 : ℝ) ≤ s + 1) (abs_nonneg (s - 1))
  linarith

theorem pair_pos (c d x A : ℝ) (hx : 0 ≤ x) (h : 0 ≤ c + d * x) (hA : 0 ≤ A) : 0 ≤ c + x * (d + x * A) := by
  have e : c + x * (d + x * A) = c + d * x + x * (x * A) := by ring
  rw [e]
  exact add_nonneg h (mul_nonneg hx (mul_nonneg hx hA))

theorem pC_pos (u : ℝ) (h0 : 0 ≤ u) (h1 : u ≤ 1 / 4) : 0 ≤ ev pC u := by
  simp only [ev, pC]
  push_cast
  repeat' (first | (refine pair_pos _ _ _ _ h0 (by linarith) ?_))
  linarith

theorem pT_pos (x : ℝ) (h0 : 0 ≤ x) (h1 : x ≤ 1) : 0 ≤ ev pT x := by
  simp only [ev, pT]
  push_cast
  repeat' (first | (refine pair_pos _ _ _ _ h0 (by linarith) ?_))
  linarith

/-- the derivative up to 1/2 -/
theorem closeC (x : ℝ) (h0 : 0 ≤ x) (h1 : x ≤ 1 / 2) : |ev pC (x * x) / 10 ^ 25 * √(1 - x ^ 2) - 1| ≤ 27 / 10 ^ 15 := by
  have hu : x * x ≤ 1 / 4 := by nlinarith
  have h := boundC (x * x) (mul_nonneg h0 h0) hu
  refine root_close _ _ (mul_nonneg (div_nonneg (pC_pos _ (mul_nonneg h0 h0) hu) (by positivity)) (Real.sqrt_nonneg _)) ?_
  rw [mul_pow, Real.sq_sqrt (by nlinarith), pow_two x]
  exact h

/-- the derivative from 1/2 -/
theorem closeT (x : ℝ) (h0 : 1 / 2 ≤ x) (h1 : x ≤ 1) : |ev pT x / 10 ^ 25 / 2 * √(1 + x) - 1| ≤ 12 / 10 ^ 15 := by
  have h := boundT x h0 h1
  refine root_close _ _ (mul_nonneg (div_nonneg (div_nonneg (pT_pos x (by linarith) h1) (by positivity)) (by norm_num)) (Real.sqrt_nonneg _)) ?_
  rw [mul_pow, Real.sq_sqrt (by linarith)]
  convert h using 2
  ring

/-- the polynomial up to 1/2 -/
theorem center_deriv (x : ℝ) : HasDerivAt center (ev pC (x * x) / 10 ^ 25) x := by
  have e : center = fun x : ℝ => (10000000000000000000000000 / 10 ^ 25) * x ^ 1 + (1666666666666558995379880 / 10 ^ 25) * x ^ 3 + (750000000029696112392353 / 10 ^ 25) * x ^ 5 + (446428568582815922683933 / 10 ^ 25) * x ^ 7 + (303819580081956423799529 / 10 ^ 25) * x ^ 9 + (223717830666671020710108 / 10 ^ 25) * x ^ 11 + (173593516996479249428647 / 10 ^ 25) * x ^ 13 + (138885410156894774969889 / 10 ^ 25) * x ^ 15 + (121483892822292648695383 / 10 ^ 25) * x ^ 17 + (66153165197009078340075 / 10 ^ 25) * x ^ 19 + (192942786775238654913582 / 10 ^ 25) * x ^ 21 + (-158620440988475212803145 / 10 ^ 25) * x ^ 23 + (316658385792867081040808 / 10 ^ 25) * x ^ 25 := by
    funext x
    simp only [center, center1, horner, cCoef, List.foldl]
    push_cast
    ring
  rw [e]
  have hk : ∀ (c : ℝ) (n : ℕ), HasDerivAt (fun x : ℝ => c * x ^ n) (c * (n * x ^ (n - 1))) x := fun c n => (hasDerivAt_pow n x).const_mul c
  have := ((((((((((((hk (10000000000000000000000000 / 10 ^ 25) 1).add (hk (1666666666666558995379880 / 10 ^ 25) 3)).add (hk (750000000029696112392353 / 10 ^ 25) 5)).add (hk (446428568582815922683933 / 10 ^ 25) 7)).add (hk (303819580081956423799529 / 10 ^ 25) 9)).add (hk (223717830666671020710108 / 10 ^ 25) 11)).add (hk (173593516996479249428647 / 10 ^ 25) 13)).add (hk (138885410156894774969889 / 10 ^ 25) 15)).add (hk (121483892822292648695383 / 10 ^ 25) 17)).add (hk (66153165197009078340075 / 10 ^ 25) 19)).add (hk (192942786775238654913582 / 10 ^ 25) 21)).add (hk (-158620440988475212803145 / 10 ^ 25) 23)).add (hk (316658385792867081040808 / 10 ^ 25) 25)
  refine HasDerivAt.congr_deriv this ?_
  simp only [ev, pC]
  push_cast
  ring

/-- the derivative of the polynomial from 1/2 -/
noncomputable def dTail (x : ℝ) : ℝ :=
  (-2145993335526539017488949 / 10 ^ 25) * x ^ 0 + (1780518388611074263333488 / 10 ^ 25) * x ^ 1 + (-1519979083372765807895244 / 10 ^ 25) * x ^ 2 + (1327678477776038425081520 / 10 ^ 25) * x ^ 3 + (-1149417397762786015666840 / 10 ^ 25) * x ^ 4 + (940476231523480299144210 / 10 ^ 25) * x ^ 5 + (-685078055013688008550129 / 10 ^ 25) * x ^ 6 + (416397852601791621009624 / 10 ^ 25) * x ^ 7 + (-197210303837814984097293 / 10 ^ 25) * x ^ 8 + (67024851247701809429170 / 10 ^ 25) * x ^ 9 + (-14383206064237592113334 / 10 ^ 25) * x ^ 10 + (1454277841187155497672 / 10 ^ 25) * x ^ 11

/-- the polynomial from 1/2 -/
theorem tail_deriv (x : ℝ) : HasDerivAt (fun x => -horner tCoef x) (dTail x) x := by
  have e : (fun x => -horner tCoef x) = fun x : ℝ => (15707961988153774692344105 / 10 ^ 25) * x ^ 0 + (-2145993335526539017488949 / 10 ^ 25) * x ^ 1 + (890259194305537131666744 / 10 ^ 25) * x ^ 2 + (-506659694457588602631748 / 10 ^ 25) * x ^ 3 + (331919619444009606270380 / 10 ^ 25) * x ^ 4 + (-229883479552557203133368 / 10 ^ 25) * x ^ 5 + (156746038587246716524035 / 10 ^ 25) * x ^ 6 + (-97868293573384001221447 / 10 ^ 25) * x ^ 7 + (52049731575223952626203 / 10 ^ 25) * x ^ 8 + (-21912255981979442677477 / 10 ^ 25) * x ^ 9 + (6702485124770180942917 / 10 ^ 25) * x ^ 10 + (-1307564187657962919394 / 10 ^ 25) * x ^ 11 + (121189820098929624806 / 10 ^ 25) * x ^ 12 := by
    funext x
    simp only [horner, tCoef, List.foldl]
    push_cast
    ring
  rw [e]
  have hk : ∀ (c : ℝ) (n : ℕ), HasDerivAt (fun x : ℝ => c * x ^ n) (c * (n * x ^ (n - 1))) x := fun c n => (hasDerivAt_pow n x).const_mul c
  have := ((((((((((((hk (15707961988153774692344105 / 10 ^ 25) 0).add (hk (-2145993335526539017488949 / 10 ^ 25) 1)).add (hk (890259194305537131666744 / 10 ^ 25) 2)).add (hk (-506659694457588602631748 / 10 ^ 25) 3)).add (hk (331919619444009606270380 / 10 ^ 25) 4)).add (hk (-229883479552557203133368 / 10 ^ 25) 5)).add (hk (156746038587246716524035 / 10 ^ 25) 6)).add (hk (-97868293573384001221447 / 10 ^ 25) 7)).add (hk (52049731575223952626203 / 10 ^ 25) 8)).add (hk (-21912255981979442677477 / 10 ^ 25) 9)).add (hk (6702485124770180942917 / 10 ^ 25) 10)).add (hk (-1307564187657962919394 / 10 ^ 25) 11)).add (hk (121189820098929624806 / 10 ^ 25) 12)
  refine HasDerivAt.congr_deriv this ?_
  simp only [dTail]
  push_cast
  ring

theorem tail_relation (x : ℝ) : -horner tCoef x - 2 * (1 - x) * (dTail x) = ev pT x / 10 ^ 25 := by
  simp only [horner, tCoef, List.foldl, ev, pT, dTail]
  push_cast
  ring

/-- the approximation of the arc sine up to 1/2 -/
theorem center_close (x : ℝ) (h0 : 0 ≤ x) (h1 : x ≤ 1 / 2) : |center x - Real.arcsin x| ≤ 27 / 10 ^ 15 * Real.arcsin x := by
  have hd : ∀ t ∈ Set.Icc 0 x, HasDerivAt Real.arcsin (1 / √(1 - t ^ 2)) t := by
    intro t ht
    exact Real.hasDerivAt_arcsin (by linarith [ht.1]) (by linarith [ht.2])
  have key : ∀ t ∈ Set.Icc 0 x, |ev pC (t * t) / 10 ^ 25 - 1 / √(1 - t ^ 2)| ≤ 27 / 10 ^ 15 * (1 / √(1 - t ^ 2)) := by
    intro t ht
    have hp : 0 < √(1 - t ^ 2) := Real.sqrt_pos.mpr (by nlinarith [ht.1, ht.2])
    have h := closeC t ht.1 (ht.2.trans h1)
    have e : ev pC (t * t) / 10 ^ 25 - 1 / √(1 - t ^ 2) = (ev pC (t * t) / 10 ^ 25 * √(1 - t ^ 2) - 1) * (1 / √(1 - t ^ 2)) := by field_simp
    rw [e, abs_mul, abs_of_pos (by positivity : 0 < 1 / √(1 - t ^ 2))]
    exact mul_le_mul_of_nonneg_right h (by positivity)
  have c0 : center 0 = 0 := by simp [center, center1]
  have mono : ∀ σ : ℝ, |σ| ≤ 1 → MonotoneOn (fun t => 27 / 10 ^ 15 * Real.arcsin t - σ * (center t - Real.arcsin t)) (Set.Icc 0 x) := by
    intro σ hσ
    have hD : ∀ t ∈ Set.Icc 0 x, HasDerivAt (fun t => 27 / 10 ^ 15 * Real.arcsin t - σ * (center t - Real.arcsin t))
        (27 / 10 ^ 15 * (1 / √(1 - t ^ 2)) - σ * (ev pC (t * t) / 10 ^ 25 - 1 / √(1 - t ^ 2))) t := fun t ht =>
      ((hd t ht).const_mul _).sub (((center_deriv t).sub (hd t ht)).const_mul σ)
    refine monotoneOn_of_deriv_nonneg (convex_Icc 0 x) (fun t ht => (hD t ht).continuousAt.continuousWithinAt)
      (fun t ht => (hD t (interior_subset ht)).differentiableAt.differentiableWithinAt) (fun t ht => ?_)
    rw [(hD t (interior_subset ht)).deriv]
    have h := key t (interior_subset ht)
    have h2 : |σ * (ev pC (t * t) / 10 ^ 25 - 1 / √(1 - t ^ 2))| ≤ 27 / 10 ^ 15 * (1 / √(1 - t ^ 2)) := by
      rw [abs_mul]
      have := mul_le_mul hσ h (abs_nonneg _) zero_le_one
      linarith
    linarith [(abs_le.mp h2).2]
  have m1 := mono 1 (by simp) (Set.left_mem_Icc.mpr h0) (Set.right_mem_Icc.mpr h0) h0
  have m2 := mono (-1) (by simp) (Set.left_mem_Icc.mpr h0) (Set.right_mem_Icc.mpr h0) h0
  simp only [c0, Real.arcsin_zero, mul_zero, sub_zero] at m1 m2
  rw [abs_le]
  constructor <;> linarith

/-- the approximation of the arc cosine from 1/2 -/
theorem tail_close (x : ℝ) (h0 : 1 / 2 ≤ x) (h1 : x ≤ 1) :
    |√(1 - x) * -horner tCoef x - Real.arccos x| ≤ 12 / 10 ^ 15 * Real.arccos x := by
  have hf : ∀ t : ℝ, 1 / 2 ≤ t → t < 1 → HasDerivAt (fun t => √(1 - t) * -horner tCoef t) (-(ev pT t / 10 ^ 25 / 2 * √(1 + t)) / √(1 - t ^ 2)) t := by
    intro t h2 h3
    have hs : 0 < √(1 - t) := Real.sqrt_pos.mpr (by linarith)
    have hs2 : √(1 - t) * √(1 - t) = 1 - t := Real.mul_self_sqrt (by linarith)
    have hr : 0 < √(1 + t) := Real.sqrt_pos.mpr (by linarith)
    have hm : √(1 - t ^ 2) = √(1 - t) * √(1 + t) := by
      rw [← Real.sqrt_mul (by linarith)]
      congr 1
      ring
    have d1 : HasDerivAt (fun t : ℝ => √(1 - t)) (-1 / (2 * √(1 - t))) t :=
      ((hasDerivAt_id t).const_sub 1).sqrt (by simp only [id]; linarith)
    refine HasDerivAt.congr_deriv (d1.mul (tail_deriv t)) ?_
    rw [← tail_relation, hm]
    field_simp
    rw [pow_two, hs2]
    ring
  have hd : ∀ t : ℝ, 1 / 2 ≤ t → t < 1 → HasDerivAt Real.arccos (-(1 / √(1 - t ^ 2))) t := by
    intro t h2 h3
    exact Real.hasDerivAt_arccos (by linarith) (by linarith)
  have cont : ContinuousOn (fun t => √(1 - t) * -horner tCoef t) (Set.Icc x 1) := by
    have : Continuous fun t => -horner tCoef t := continuous_iff_continuousAt.mpr fun t => (tail_deriv t).continuousAt
    exact (((continuous_const.sub continuous_id).sqrt).mul this).continuousOn
  have mono : ∀ σ : ℝ, |σ| ≤ 1 → AntitoneOn (fun t => 12 / 10 ^ 15 * Real.arccos t - σ * (√(1 - t) * -horner tCoef t - Real.arccos t)) (Set.Icc x 1) := by
    intro σ hσ
    have hD : ∀ t ∈ Set.Ioo x 1, HasDerivAt (fun t => 12 / 10 ^ 15 * Real.arccos t - σ * (√(1 - t) * -horner tCoef t - Real.arccos t))
        (12 / 10 ^ 15 * (-(1 / √(1 - t ^ 2))) - σ * (-(ev pT t / 10 ^ 25 / 2 * √(1 + t)) / √(1 - t ^ 2) - -(1 / √(1 - t ^ 2)))) t := fun t ht =>
      have a := hd t (by linarith [ht.1]) ht.2
      (a.const_mul _).sub (((hf t (by linarith [ht.1]) ht.2).sub a).const_mul σ)
    refine antitoneOn_of_deriv_nonpos (convex_Icc x 1) ?_ ?_ ?_
    · exact (continuousOn_const.mul Real.continuous_arccos.continuousOn).sub
        (continuousOn_const.mul (cont.sub Real.continuous_arccos.continuousOn))
    · rw [interior_Icc]
      exact fun t ht => (hD t ht).differentiableAt.differentiableWithinAt
    · rw [interior_Icc]
      intro t ht
      rw [(hD t ht).deriv]
      have hp : 0 < √(1 - t ^ 2) := Real.sqrt_pos.mpr (by nlinarith [ht.1, ht.2])
      have h := closeT t (by linarith [ht.1]) ht.2.le
      generalize ev pT t / 10 ^ 25 / 2 * √(1 + t) = A at h
      have e : 12 / 10 ^ 15 * (-(1 / √(1 - t ^ 2))) - σ * (-A / √(1 - t ^ 2) - -(1 / √(1 - t ^ 2))) =
          (σ * (A - 1) - 12 / 10 ^ 15) / √(1 - t ^ 2) := by
        field_simp
        ring
      rw [e]
      refine div_nonpos_of_nonpos_of_nonneg ?_ hp.le
      have h2 : |σ * (A - 1)| ≤ 12 / 10 ^ 15 := by
        rw [abs_mul]
        have := mul_le_mul hσ h (abs_nonneg _) zero_le_one
        linarith
      linarith [(abs_le.mp h2).2]
  have m1 := mono 1 (by simp) (Set.left_mem_Icc.mpr h1) (Set.right_mem_Icc.mpr h1) h1
  have m2 := mono (-1) (by simp) (Set.left_mem_Icc.mpr h1) (Set.right_mem_Icc.mpr h1) h1
  simp only [Real.arccos_one, sub_self, Real.sqrt_zero, zero_mul, mul_zero, sub_zero] at m1 m2
  rw [abs_le]
  constructor <;> linarith

end Sprout.Asin
