import Verif.Proofs.Poisson
import Verif.Proofs.MathConst
import Verif.Proofs.QuantileLaw

/-!
# C130: Poisson distribution

`U` draws a uniform number: its values are at least 0 and below 1. Statements over every `Arith R` hold
for every arithmetic, among them that of `double`; the others are about exact real numbers.
-/

namespace Sprout
open RandDist RandDist.Poisson Arith

/-- For a mean below ten both versions draw one number `u` and return the `u`-quantile of the Poisson
distribution, which exists; `++x` overflows only if it is not a value of the type. -/
theorem C130_inversion {E : Type} (T : IntTy) (U : E → ℝ × E) (hU : Uniform U) (mean : ℝ) (d : PDist ℝ)
    (hm : 0 < mean) (hm10 : mean < 10) (hd : make mean = some d) (e : E) :
    ∃ n : ℕ, Quantile (poissonProb mean) (U e).1 n ∧
      ((n : ℤ) ≤ T.hi → call T U d e = some ((n : ℤ), (U e).2) ∧ callConst T U d e = some ((n : ℤ), (U e).2)) := by
  obtain ⟨n, hn⟩ := quantile_exists _ (poisson_hasSum mean) (U e).1 (hU e).2
  refine ⟨n, hn, fun hT => ?_⟩
  unfold make at hd
  rw [if_pos (by rw [lt_real, lit_real]; push_cast; exact hm)] at hd
  injection hd with hd
  have hu : useInversion mean = true := by
    unfold useInversion
    rw [lt_real, lit_real]
    push_cast
    exact hm10
  have key := invertLoop_spec T mean (U e).1 n hT hn 0 (Nat.zero_le _)
  have e0 : poissonProb mean 0 = Real.exp (-mean) := by simp [poissonProb]
  have hx : initExpMean mean = Real.exp (-mean) := by
    unfold initExpMean
    rw [hu]
    rfl
  rw [Finset.range_zero, Finset.sum_empty, sub_zero, e0, ← hx] at key
  have hi : invert T U d e = some ((n : ℤ), (U e).2) := by
    unfold invert
    subst hd
    show (invertLoop T mean (U e).1 (0 : ℤ) (initExpMean mean)).bind _ = _
    rw [show ((0 : ℕ) : ℤ) = 0 from rfl] at key
    rw [key]
    rfl
  unfold call callConst
  have : d.mean = mean := by rw [← hd]
  rw [this, if_pos hu, if_pos hu]
  exact ⟨hi, hi⟩

/-- For a mean below ten a uniform draw gives the value `n` with the probability of the Poisson distribution. -/
theorem C130_law (T : IntTy) (mean : ℝ) (d : PDist ℝ) (hm : 0 < mean) (hm10 : mean < 10) (hd : make mean = some d)
    (n : ℕ) (hn : (n : ℤ) ≤ T.hi) :
    MeasureTheory.volume {u : ℝ | u ∈ Set.Ico 0 1 ∧ call T (fun e : Unit => (u, e)) d () = some ((n : ℤ), ())}
      = ENNReal.ofReal (poissonProb mean n) := by
  rw [← quantile_volume (poissonProb mean) (fun k => by unfold poissonProb; positivity) (poisson_hasSum mean) n]
  congr 1
  ext u
  refine and_congr_right fun hu => ?_
  have hU : Uniform (fun e : Unit => (u, e)) := fun _ => ⟨hu.1, hu.2⟩
  obtain ⟨k, hk, hc⟩ := C130_inversion T (fun e : Unit => (u, e)) hU mean d hm hm10 hd ()
  constructor
  · intro h
    obtain ⟨k', hk', hc'⟩ := C130_inversion ⟨T.lo, max T.hi k⟩ (fun e : Unit => (u, e)) hU mean d hm hm10 hd ()
    have hkk := quantile_unique hk hk'
    subst hkk
    have h2 := (hc' (le_max_right _ _)).1
    have h3 := call_mono (T' := ⟨T.lo, max T.hi k⟩) (le_max_left _ _) (useInversion_of hd hm10) h
    rw [h2] at h3
    injection h3 with h3
    have h4 := congrArg Prod.fst h3
    dsimp only at h4
    have h5 : k = n := by exact_mod_cast h4
    exact h5 ▸ hk
  · intro h
    have := quantile_unique hk h
    subst this
    exact (hc hn).1

/-- For every mean of at least ten the values returned by both versions are not negative and fit into the type
(for smaller means see `C130_inversion`). -/
theorem C130_range {E : Type} (T : IntTy) (U : E → ℝ × E) (hU : Uniform U) (mean : ℝ) (d : PDist ℝ)
    (hm : 10 ≤ mean) (hd : make mean = some d) (e e' : E) (n : ℤ)
    (h : call T U d e = some (n, e') ∨ callConst T U d e = some (n, e')) : 0 ≤ n ∧ n ≤ T.hi := by
  obtain ⟨g, hu⟩ := make_good hd hm
  have hdir : ∀ e n, (U e).1 ≤ 86 / 100 * d.ptrd.v_r → toInt T (direct d ((U e).1 / d.ptrd.v_r - lit (43 / 100))) = some n →
      0 ≤ n ∧ n ≤ T.hi := by
    intro e n hle h
    have hv := g.v_r_pos
    have h0 : 0 ≤ (U e).1 / d.ptrd.v_r := div_nonneg (hU e).1 (by linarith)
    have h1 : (U e).1 / d.ptrd.v_r ≤ 86 / 100 := by
      rw [div_le_iff₀ (by linarith)]
      exact hle
    have hn := g.direct_nonneg (u := (U e).1 / d.ptrd.v_r - 43 / 100) (by linarith) (by linarith)
    refine ⟨toInt_floor_nonneg h ?_, (toInt_some h).2.2⟩
    unfold direct
    simp only [floor_real, lit_real, abs_real]
    push_cast
    exact_mod_cast Int.floor_nonneg.2 hn
  have hround : ∀ e i e', round T U d e = some (some i, e') → 0 ≤ i ∧ i ≤ T.hi := by
    intro e i e' h
    unfold RandDist.Poisson.round at h
    dsimp only at h
    split at h
    · rename_i hc
      rw [le_real, lit_real] at hc
      push_cast at hc
      rw [Option.bind_eq_bind, Option.bind_eq_some_iff] at h
      obtain ⟨j, h1, h2⟩ := h
      cases h2
      exact hdir e i hc h1
    · split at h <;>
      · rw [Option.bind_eq_bind, Option.bind_eq_some_iff] at h
        obtain ⟨j, h1, h2⟩ := h
        cases h2
        exact tail_nonneg _ _ _ _ _ h1
  have hroundc : ∀ e i e', roundConst T U d e = some (some i, e') → 0 ≤ i ∧ i ≤ T.hi := by
    intro e i e' h
    unfold roundConst at h
    dsimp only at h
    split at h
    · rename_i hc
      rw [le_real, lit_real] at hc
      push_cast at hc
      rw [Option.bind_eq_bind, Option.bind_eq_some_iff] at h
      obtain ⟨j, h1, h2⟩ := h
      cases h2
      exact hdir e i hc h1
    · split at h <;>
      · rw [Option.bind_eq_bind, Option.bind_eq_some_iff] at h
        obtain ⟨j, h1, h2⟩ := h
        cases h2
        exact tail_nonneg _ _ _ _ _ h1
  unfold call callConst at h
  rw [hu] at h
  rcases h with h | h
  · exact rounds_inv _ (fun n => 0 ≤ n ∧ n ≤ T.hi) hround e n e' h
  · exact rounds_inv _ (fun n => 0 ≤ n ∧ n ≤ T.hi) hroundc e n e' h

theorem log_near_2 : |Real.log 2 - 6931471805599453094 / 10 ^ 19| ≤ 1 / 10 ^ 17 := by
  have h := MathConst.log_bound 2 60 (by norm_num)
  have e : -Real.log (1 - 1 / (2 : ℕ)) = Real.log 2 := by
    rw [← Real.log_inv]
    norm_num
  rw [e] at h
  have hq : |MathConst.logQ 2 60 - 6931471805599453094 / 10 ^ 19| ≤ 1 / 10 ^ 18 := by decide +kernel
  have hq' : |((MathConst.logQ 2 60 : ℚ) : ℝ) - 6931471805599453094 / 10 ^ 19| ≤ 1 / 10 ^ 18 := by
    have := (Rat.cast_le (K := ℝ)).2 hq
    push_cast at this
    exact this
  have i1 : 2 * (1 / ((2 : ℕ) : ℝ)) ^ (60 + 1) ≤ 1 / 10 ^ 18 := by norm_num
  have j1 := abs_le.1 (le_trans h i1)
  have j2 := abs_le.1 hq'
  have i3 : 2 * (1 / 10 ^ 18 : ℝ) ≤ 1 / 10 ^ 17 := by norm_num
  rw [abs_le]
  constructor <;> linarith [j1.1, j1.2, j2.1, j2.2]

theorem log_near_3 : |Real.log (3 / 2) - 4054651081081643819 / 10 ^ 19| ≤ 1 / 10 ^ 17 := by
  have h := MathConst.log_bound 3 40 (by norm_num)
  have e : -Real.log (1 - 1 / (3 : ℕ)) = Real.log (3 / 2) := by
    rw [← Real.log_inv]
    norm_num
  rw [e] at h
  have hq : |MathConst.logQ 3 40 - 4054651081081643819 / 10 ^ 19| ≤ 1 / 10 ^ 18 := by decide +kernel
  have hq' : |((MathConst.logQ 3 40 : ℚ) : ℝ) - 4054651081081643819 / 10 ^ 19| ≤ 1 / 10 ^ 18 := by
    have := (Rat.cast_le (K := ℝ)).2 hq
    push_cast at this
    exact this
  have i1 : 2 * (1 / ((3 : ℕ) : ℝ)) ^ (40 + 1) ≤ 1 / 10 ^ 18 := by norm_num
  have j1 := abs_le.1 (le_trans h i1)
  have j2 := abs_le.1 hq'
  have i3 : 2 * (1 / 10 ^ 18 : ℝ) ≤ 1 / 10 ^ 17 := by norm_num
  rw [abs_le]
  constructor <;> linarith [j1.1, j1.2, j2.1, j2.2]

theorem log_near_5 : |Real.log (5 / 4) - 2231435513142097557 / 10 ^ 19| ≤ 1 / 10 ^ 17 := by
  have h := MathConst.log_bound 5 28 (by norm_num)
  have e : -Real.log (1 - 1 / (5 : ℕ)) = Real.log (5 / 4) := by
    rw [← Real.log_inv]
    norm_num
  rw [e] at h
  have hq : |MathConst.logQ 5 28 - 2231435513142097557 / 10 ^ 19| ≤ 1 / 10 ^ 18 := by decide +kernel
  have hq' : |((MathConst.logQ 5 28 : ℚ) : ℝ) - 2231435513142097557 / 10 ^ 19| ≤ 1 / 10 ^ 18 := by
    have := (Rat.cast_le (K := ℝ)).2 hq
    push_cast at this
    exact this
  have i1 : 2 * (1 / ((5 : ℕ) : ℝ)) ^ (28 + 1) ≤ 1 / 10 ^ 18 := by norm_num
  have j1 := abs_le.1 (le_trans h i1)
  have j2 := abs_le.1 hq'
  have i3 : 2 * (1 / 10 ^ 18 : ℝ) ≤ 1 / 10 ^ 17 := by norm_num
  rw [abs_le]
  constructor <;> linarith [j1.1, j1.2, j2.1, j2.2]

theorem log_near_7 : |Real.log (7 / 6) - 1541506798272583042 / 10 ^ 19| ≤ 1 / 10 ^ 17 := by
  have h := MathConst.log_bound 7 24 (by norm_num)
  have e : -Real.log (1 - 1 / (7 : ℕ)) = Real.log (7 / 6) := by
    rw [← Real.log_inv]
    norm_num
  rw [e] at h
  have hq : |MathConst.logQ 7 24 - 1541506798272583042 / 10 ^ 19| ≤ 1 / 10 ^ 18 := by decide +kernel
  have hq' : |((MathConst.logQ 7 24 : ℚ) : ℝ) - 1541506798272583042 / 10 ^ 19| ≤ 1 / 10 ^ 18 := by
    have := (Rat.cast_le (K := ℝ)).2 hq
    push_cast at this
    exact this
  have i1 : 2 * (1 / ((7 : ℕ) : ℝ)) ^ (24 + 1) ≤ 1 / 10 ^ 18 := by norm_num
  have j1 := abs_le.1 (le_trans h i1)
  have j2 := abs_le.1 hq'
  have i3 : 2 * (1 / 10 ^ 18 : ℝ) ≤ 1 / 10 ^ 17 := by norm_num
  rw [abs_le]
  constructor <;> linarith [j1.1, j1.2, j2.1, j2.2]

/-- The ten logarithms of factorials are right up to `10 ^ -14`. -/
theorem C130_table (k : ℕ) (hk : k < 10) :
    ∃ x : ℝ, logFactorial (k : ℤ) = some x ∧ |x - Real.log (k.factorial : ℝ)| ≤ 1 / 10 ^ 14 := by
  have n2 := abs_le.1 log_near_2
  have n3 := abs_le.1 log_near_3
  have n5 := abs_le.1 log_near_5
  have n7 := abs_le.1 log_near_7
  have l3 : Real.log 3 = Real.log 2 + Real.log (3 / 2) := by
    rw [← Real.log_mul (by norm_num) (by norm_num)]; norm_num
  have l5 : Real.log 5 = 2 * Real.log 2 + Real.log (5 / 4) := by
    rw [show 2 * Real.log 2 = Real.log (2 ^ 2) by rw [Real.log_pow]; norm_num, ← Real.log_mul (by norm_num) (by norm_num)]
    norm_num
  have l7 : Real.log 7 = Real.log 2 + Real.log 3 + Real.log (7 / 6) := by
    rw [← Real.log_mul (by norm_num) (by norm_num), ← Real.log_mul (by norm_num) (by norm_num)]; norm_num
  have fl : ∀ a b c f : ℕ, Real.log ((2 ^ a * 3 ^ b * 5 ^ c * 7 ^ f : ℕ) : ℝ)
      = a * Real.log 2 + b * Real.log 3 + c * Real.log 5 + f * Real.log 7 := by
    intro a b c f
    push_cast
    rw [Real.log_mul (by positivity) (by positivity), Real.log_mul (by positivity) (by positivity),
      Real.log_mul (by positivity) (by positivity), Real.log_pow, Real.log_pow, Real.log_pow, Real.log_pow]
  have i0 : (0 : ℝ) < 1 / 10 ^ 17 := by positivity
  have i1 : 100 * (1 / 10 ^ 17 : ℝ) ≤ 1 / 10 ^ 14 := by norm_num
  rcases k with _ | _ | _ | _ | _ | _ | _ | _ | _ | _ | k
  · exact ⟨((0 : ℚ) : ℝ), rfl, by simp⟩
  · exact ⟨((0 : ℚ) : ℝ), rfl, by simp⟩
  · refine ⟨((69314718055994529 / 10 ^ 17 : ℚ) : ℝ), rfl, ?_⟩
    rw [show (((2 : ℕ).factorial : ℕ) : ℝ) = ((2 ^ 1 * 3 ^ 0 * 5 ^ 0 * 7 ^ 0 : ℕ) : ℝ) by norm_num [Nat.factorial], fl, l7, l5, l3]
    push_cast
    rw [abs_le]
    constructor <;> linarith [n2.1, n2.2, n3.1, n3.2, n5.1, n5.2, n7.1, n7.2]
  · refine ⟨((17917594692280550 / 10 ^ 16 : ℚ) : ℝ), rfl, ?_⟩
    rw [show (((3 : ℕ).factorial : ℕ) : ℝ) = ((2 ^ 1 * 3 ^ 1 * 5 ^ 0 * 7 ^ 0 : ℕ) : ℝ) by norm_num [Nat.factorial], fl, l7, l5, l3]
    push_cast
    rw [abs_le]
    constructor <;> linarith [n2.1, n2.2, n3.1, n3.2, n5.1, n5.2, n7.1, n7.2]
  · refine ⟨((31780538303479458 / 10 ^ 16 : ℚ) : ℝ), rfl, ?_⟩
    rw [show (((4 : ℕ).factorial : ℕ) : ℝ) = ((2 ^ 3 * 3 ^ 1 * 5 ^ 0 * 7 ^ 0 : ℕ) : ℝ) by norm_num [Nat.factorial], fl, l7, l5, l3]
    push_cast
    rw [abs_le]
    constructor <;> linarith [n2.1, n2.2, n3.1, n3.2, n5.1, n5.2, n7.1, n7.2]
  · refine ⟨((47874917427820458 / 10 ^ 16 : ℚ) : ℝ), rfl, ?_⟩
    rw [show (((5 : ℕ).factorial : ℕ) : ℝ) = ((2 ^ 3 * 3 ^ 1 * 5 ^ 1 * 7 ^ 0 : ℕ) : ℝ) by norm_num [Nat.factorial], fl, l7, l5, l3]
    push_cast
    rw [abs_le]
    constructor <;> linarith [n2.1, n2.2, n3.1, n3.2, n5.1, n5.2, n7.1, n7.2]
  · refine ⟨((65792512120101012 / 10 ^ 16 : ℚ) : ℝ), rfl, ?_⟩
    rw [show (((6 : ℕ).factorial : ℕ) : ℝ) = ((2 ^ 4 * 3 ^ 2 * 5 ^ 1 * 7 ^ 0 : ℕ) : ℝ) by norm_num [Nat.factorial], fl, l7, l5, l3]
    push_cast
    rw [abs_le]
    constructor <;> linarith [n2.1, n2.2, n3.1, n3.2, n5.1, n5.2, n7.1, n7.2]
  · refine ⟨((85251613610654147 / 10 ^ 16 : ℚ) : ℝ), rfl, ?_⟩
    rw [show (((7 : ℕ).factorial : ℕ) : ℝ) = ((2 ^ 4 * 3 ^ 2 * 5 ^ 1 * 7 ^ 1 : ℕ) : ℝ) by norm_num [Nat.factorial], fl, l7, l5, l3]
    push_cast
    rw [abs_le]
    constructor <;> linarith [n2.1, n2.2, n3.1, n3.2, n5.1, n5.2, n7.1, n7.2]
  · refine ⟨((10604602902745251 / 10 ^ 15 : ℚ) : ℝ), rfl, ?_⟩
    rw [show (((8 : ℕ).factorial : ℕ) : ℝ) = ((2 ^ 7 * 3 ^ 2 * 5 ^ 1 * 7 ^ 1 : ℕ) : ℝ) by norm_num [Nat.factorial], fl, l7, l5, l3]
    push_cast
    rw [abs_le]
    constructor <;> linarith [n2.1, n2.2, n3.1, n3.2, n5.1, n5.2, n7.1, n7.2]
  · refine ⟨((12801827480081469 / 10 ^ 15 : ℚ) : ℝ), rfl, ?_⟩
    rw [show (((9 : ℕ).factorial : ℕ) : ℝ) = ((2 ^ 7 * 3 ^ 4 * 5 ^ 1 * 7 ^ 1 : ℕ) : ℝ) by norm_num [Nat.factorial], fl, l7, l5, l3]
    push_cast
    rw [abs_le]
    constructor <;> linarith [n2.1, n2.2, n3.1, n3.2, n5.1, n5.2, n7.1, n7.2]
  · omega

/-- the value returned by `mean()` is the mean -/
def MeanFull : Prop := ∀ (mean : ℝ) (d : PDist ℝ), make mean = some d → mean < 2 ^ 31 →
  ∃ n : ℤ, meanFn int32 d = some n ∧ (n : ℝ) = mean

/-- `mean()` has the integer type: 2 for the mean 2.5. -/
theorem C130_mean_refuted : ¬ MeanFull := by
  intro h
  have hp : Arith.lt (lit 0 : ℝ) (5 / 2) = true := by
    rw [lt_real, lit_real]; push_cast; norm_num
  obtain ⟨n, h1, h2⟩ := h (5 / 2) ⟨5 / 2, initPtrd (5 / 2), initExpMean (5 / 2)⟩
    (by unfold make; rw [if_pos hp]) (by norm_num)
  have h3 : (2 * n : ℝ) = 5 := by linarith
  have h4 : 2 * n = 5 := by exact_mod_cast h3
  omega

theorem C130_mean_partial (T : IntTy) (n : ℕ) (d : PDist ℝ) (hd : make (n : ℝ) = some d) (hl : T.lo ≤ 0) (hn : (n : ℤ) ≤ T.hi) :
    meanFn T d = some (n : ℤ) := by
  have hm : d.mean = n := by
    unfold make at hd
    split at hd
    · injection hd with hd
      rw [← hd]
    · cases hd
  unfold meanFn
  rw [hm]
  exact toInt_int T (n : ℤ) (by omega) hn

/-- In every arithmetic: a value `k` of at least ten that fails the first test is looked up in the
table of ten elements. -/
theorem C130_reject_undefined {R : Type} [Arith R] (T : IntTy) (d : PDist R) (k v : R) (i : ℤ)
    (hk : le (lit 0) k = true) (hi : toInt T k = some i) (h10 : 10 ≤ i)
    (hr : le (log (v * d.ptrd.smu))
      ((k + lit (1 / 2)) * log (d.mean / k) - d.mean - lit (91893853320467267 / 10 ^ 17) + k
        - (lit 1 / lit 12 - (lit 1 / lit 360 - lit 1 / (lit 1260 * k * k)) / (k * k)) / k) = false) :
    accept T d k v = none := by
  unfold accept
  rw [hr, Bool.and_false, if_neg (by simp), if_pos hk, hi]
  show (logFactorial i).bind _ = none
  unfold logFactorial
  rw [if_pos (by omega), List.getElem?_eq_none (by simp [table]; omega)]
  rfl

/-! ## two runs with the mean 16 -/

/-- the distribution with the mean 16 -/
noncomputable def dist16 : PDist ℝ := ⟨16, initPtrd 16, initExpMean 16⟩

theorem make16 : make (16 : ℝ) = some dist16 := by
  unfold make
  rw [if_pos (by rw [lt_real, lit_real]; push_cast; norm_num)]
  rfl

theorem good16 : Good dist16 4 ∧ useInversion dist16.mean = false := by
  have h := make_good make16 (by norm_num)
  rw [show Real.sqrt 16 = 4 by rw [show (16 : ℝ) = 4 ^ 2 by norm_num, Real.sqrt_sq (by norm_num)]] at h
  exact h

theorem par16 : dist16.mean = 16 ∧ dist16.ptrd.b = 11051 / 1000 ∧ dist16.ptrd.a = 21539633 / 100000000 ∧
    dist16.ptrd.v_r = 9277 / 10000 - 36224 / 90510 ∧ dist16.ptrd.smu = 4 ∧
    dist16.ptrd.inv_alpha = 11239 / 10000 + 11328 / 76510 := by
  have g := good16.1
  have hb : dist16.ptrd.b = 11051 / 1000 := by rw [g.b]; norm_num
  refine ⟨rfl, hb, ?_, ?_, g.smu, ?_⟩
  · rw [g.a, hb]; norm_num
  · rw [g.v_r, hb]; norm_num
  · rw [g.inv_alpha, hb]; norm_num

/-- With the mean 16, the draws `0.94 v_r` and `0.015`: `k` is 42, fails the first test, and the
element 42 of the table of ten is read. -/
theorem C130_table_overrun :
    round int32 (draws (94 / 100 * dist16.ptrd.v_r) (15 / 1000) 0) dist16 0 = none := by
  obtain ⟨hm, hb, ha, hv, hs, hi⟩ := par16
  unfold RandDist.Poisson.round
  dsimp only
  have d0 : draws (94 / 100 * dist16.ptrd.v_r) (15 / 1000) 0 0 = (94 / 100 * dist16.ptrd.v_r, 1) := rfl
  have d1 : draws (94 / 100 * dist16.ptrd.v_r) (15 / 1000) 0 1 = (15 / 1000, 2) := rfl
  rw [d0]
  rw [if_neg (by rw [le_real, lit_real, hv]; push_cast; norm_num), if_neg (by rw [le_real, hv]; norm_num)]
  dsimp only
  rw [d1]
  have hu : foldU dist16 (94 / 100 * dist16.ptrd.v_r) = 49 / 100 := by
    unfold foldU
    simp only [lit_real]
    have : 94 / 100 * dist16.ptrd.v_r / dist16.ptrd.v_r - ((93 / 100 : ℚ) : ℝ) = 1 / 100 := by
      rw [mul_div_cancel_right₀ _ (by rw [hv]; norm_num)]
      push_cast
      norm_num
    rw [this, if_neg (by rw [lt_real]; push_cast; norm_num)]
    push_cast
    norm_num
  have ht : tail int32 dist16 (49 / 100) (15 / 1000 * dist16.ptrd.v_r) = none := by
    unfold RandDist.Poisson.tail
    dsimp only
    simp only [abs_real, lit_real]
    rw [show |(49 / 100 : ℝ)| = 49 / 100 from abs_of_pos (by norm_num)]
    have hus : ((1 / 2 : ℚ) : ℝ) - 49 / 100 = 1 / 100 := by push_cast; norm_num
    rw [hus, if_neg (by
      rw [Bool.and_eq_true, lt_real, lt_real, hv]
      rintro ⟨_, h⟩
      revert h
      norm_num)]
    have hk : Arith.floor ((((2 : ℚ) : ℝ) * dist16.ptrd.a / (1 / 100) + dist16.ptrd.b) * (49 / 100) + dist16.mean + ((445 / 1000 : ℚ) : ℝ))
        = ((42 : ℤ) : ℝ) := by
      rw [floor_real, ha, hb, hm]
      congr 1
      rw [Int.floor_eq_iff]
      push_cast
      constructor <;> norm_num
    rw [hk]
    rw [C130_reject_undefined int32 dist16 ((42 : ℤ) : ℝ) _ 42 (by rw [le_real, lit_real]; push_cast; norm_num)
      (toInt_int int32 42 (by decide) (by decide)) (by norm_num)]
    · rfl
    · rw [← Bool.not_eq_true, le_real, not_le]
      simp only [lit_real, log_real]
      rw [hv, ha, hb, hm, hs, hi]
      have h1 : Real.log (16 / ((42 : ℤ) : ℝ)) ≤ -(9 / 10) := by
        have := le_log_of (42 / 16) (by norm_num) 9 10 (by norm_num) (by norm_num)
        rw [show (16 / ((42 : ℤ) : ℝ) : ℝ) = (42 / 16)⁻¹ by push_cast; norm_num, Real.log_inv]
        push_cast at this
        linarith
      generalize hx : (15 / 1000 * (9277 / 10000 - 36224 / 90510) * (11239 / 10000 + 11328 / 76510) /
        (21539633 / 100000000 / (1 / 100 * (1 / 100)) + 11051 / 1000) * 4 : ℝ) = x
      have hx0 : 0 < x := by rw [← hx]; norm_num
      have h2 : -12 ≤ Real.log x := by
        have := log_le_of x⁻¹ (by positivity) 12 1 (by norm_num) (by rw [← hx]; norm_num)
        rw [Real.log_inv] at this
        push_cast at this
        linarith
      refine lt_of_lt_of_le ?_ h2
      have h3 : (((42 : ℤ) : ℝ) + ((1 / 2 : ℚ) : ℝ)) * Real.log (16 / ((42 : ℤ) : ℝ)) ≤ (42 + 1 / 2) * (-(9 / 10)) := by
        push_cast at h1 ⊢
        exact mul_le_mul_of_nonneg_left h1 (by norm_num)
      refine lt_of_le_of_lt (sub_le_sub_right (add_le_add_left (sub_le_sub_right (sub_le_sub_right h3 _) _) _) _) ?_
      push_cast
      norm_num
  rw [hu]
  show (tail int32 dist16 (49 / 100) (15 / 1000 * dist16.ptrd.v_r)).bind _ = none
  rw [ht]
  rfl

/-- so `do_generate` is undefined for this generator -/
theorem C130_generate_refuted : ∃ (U : ℕ → ℝ × ℕ) (d : PDist ℝ), Uniform U ∧ make 16 = some d ∧ call int32 U d 0 = none := by
  refine ⟨draws (94 / 100 * dist16.ptrd.v_r) (15 / 1000) 0, dist16, ?_, make16, ?_⟩
  · have hv := par16.2.2.2.1
    refine draws_uniform ?_ (by norm_num) (by norm_num)
    rw [hv]
    norm_num
  · unfold call
    rw [good16.2, if_neg (by simp), rounds.eq_def, C130_table_overrun]
    rfl

/-- the two tails of the second run -/
theorem tail16 (v : ℝ) (hv0 : 0 < v) :
    tail int32 dist16 (-(47 / 100)) v
      = if Real.log (v * dist16.ptrd.inv_alpha / (dist16.ptrd.a / (3 / 100 * (3 / 100)) + dist16.ptrd.b))
            ≤ 4 * Real.log 16 - 16 - 31780538303479458 / 10 ^ 16
        then some (some 4) else some none := by
  obtain ⟨hm, hb, ha, hv, hs, hi⟩ := par16
  unfold RandDist.Poisson.tail
  dsimp only
  simp only [abs_real, lit_real]
  rw [show |(-(47 / 100) : ℝ)| = 47 / 100 by rw [abs_neg]; exact abs_of_pos (by norm_num)]
  have hus : ((1 / 2 : ℚ) : ℝ) - 47 / 100 = 3 / 100 := by push_cast; norm_num
  rw [hus, if_neg (by
    rw [Bool.and_eq_true, lt_real, lt_real]
    rintro ⟨h, _⟩
    revert h
    push_cast
    norm_num)]
  have hk : Arith.floor ((((2 : ℚ) : ℝ) * dist16.ptrd.a / (3 / 100) + dist16.ptrd.b) * (-(47 / 100)) + dist16.mean + ((445 / 1000 : ℚ) : ℝ))
      = ((4 : ℤ) : ℝ) := by
    rw [floor_real, ha, hb, hm]
    congr 1
    rw [Int.floor_eq_iff]
    push_cast
    constructor <;> norm_num
  rw [hk]
  have hacc : ∀ w, accept int32 dist16 ((4 : ℤ) : ℝ) w
      = some (Arith.le (Real.log w) (4 * Real.log 16 - 16 - 31780538303479458 / 10 ^ 16)) := by
    intro w
    unfold accept
    have h1 : Arith.le (lit 10 : ℝ) ((4 : ℤ) : ℝ) = false := by
      rw [← Bool.not_eq_true, le_real, lit_real]; push_cast; norm_num
    rw [h1, Bool.false_and, if_neg (by simp), if_pos (by rw [le_real, lit_real]; push_cast; norm_num),
      toInt_int int32 4 (by decide) (by decide)]
    have hf : logFactorial (R := ℝ) 4 = some (31780538303479458 / 10 ^ 16) := by
      have : logFactorial (R := ℝ) 4 = some ((31780538303479458 / 10 ^ 16 : ℚ) : ℝ) := rfl
      rw [this]
      push_cast
      rfl
    simp only [Option.bind_eq_bind, Option.bind_some, hf, log_real, hm]
    push_cast
    rfl
  rw [hacc]
  show (if Arith.le _ _ = true then _ else _) = _
  by_cases hc : Real.log (v * dist16.ptrd.inv_alpha / (dist16.ptrd.a / (3 / 100 * (3 / 100)) + dist16.ptrd.b))
            ≤ 4 * Real.log 16 - 16 - 31780538303479458 / 10 ^ 16
  · rw [if_pos hc, if_pos ((le_real _ _).2 hc), toInt_int int32 4 (by decide) (by decide)]
    rfl
  · rw [if_neg hc, if_neg (fun h => hc ((le_real _ _).1 h))]

theorem log16 (v : ℝ) (hv : 0 < v) : 4 * Real.log 16 - Real.log v = Real.log (65536 / v) := by
  rw [Real.log_div (by norm_num) hv.ne', show (65536 : ℝ) = 16 ^ 4 by norm_num, Real.log_pow]
  push_cast
  ring

/-- the two versions agree -/
def AgreeFull : Prop := ∀ (U : ℕ → ℝ × ℕ) (mean : ℝ) (d : PDist ℝ) (e : ℕ), Uniform U → make mean = some d →
  call int32 U d e = callConst int32 U d e

/-- With the mean 16 and the draws `0.9 v_r`, `0.08`, `0.43 v_r` the first version returns 4 and the version
for constant engines 16. -/
theorem C130_agree_refuted :
    (∃ (U : ℕ → ℝ × ℕ) (d : PDist ℝ), Uniform U ∧ make 16 = some d ∧ call int32 U d 0 = some (4, 2) ∧
      callConst int32 U d 0 = some (16, 3)) ∧ ¬ AgreeFull := by
  have main : ∃ (U : ℕ → ℝ × ℕ) (d : PDist ℝ), Uniform U ∧ make 16 = some d ∧ call int32 U d 0 = some (4, 2) ∧
      callConst int32 U d 0 = some (16, 3) := by
    obtain ⟨hm, hb, ha, hv, hs, hi⟩ := par16
    set U := draws (9 / 10 * dist16.ptrd.v_r) (8 / 100) (43 / 100 * dist16.ptrd.v_r) with hU
    have d0 : U 0 = (9 / 10 * dist16.ptrd.v_r, 1) := rfl
    have d1 : U 1 = (8 / 100, 2) := rfl
    have d2 : U 2 = (43 / 100 * dist16.ptrd.v_r, 3) := rfl
    have hu : foldU dist16 (9 / 10 * dist16.ptrd.v_r) = -(47 / 100) := by
      unfold foldU
      simp only [lit_real]
      have : 9 / 10 * dist16.ptrd.v_r / dist16.ptrd.v_r - ((93 / 100 : ℚ) : ℝ) = -(3 / 100) := by
        rw [mul_div_cancel_right₀ _ (by rw [hv]; norm_num)]
        push_cast
        norm_num
      rw [this, if_pos (by rw [lt_real]; push_cast; norm_num)]
      push_cast
      norm_num
    have c1 : ¬ (Arith.le (9 / 10 * dist16.ptrd.v_r) (lit (86 / 100) * dist16.ptrd.v_r) = true) := by
      rw [le_real, lit_real, hv]; push_cast; norm_num
    have c2 : ¬ (Arith.le dist16.ptrd.v_r (9 / 10 * dist16.ptrd.v_r) = true) := by
      rw [le_real, hv]; norm_num
    refine ⟨U, dist16, ?_, make16, ?_, ?_⟩
    · refine draws_uniform ?_ (by norm_num) ?_
      · rw [hv]; norm_num
      · rw [hv]; norm_num
    · have hr : round int32 U dist16 0 = some (some 4, 2) := by
        unfold RandDist.Poisson.round
        dsimp only
        rw [d0, if_neg c1, if_neg c2]
        dsimp only
        rw [d1, hu]
        show (tail int32 dist16 (-(47 / 100)) (8 / 100 * dist16.ptrd.v_r)).bind _ = _
        rw [tail16 _ (by rw [hv]; norm_num), if_pos]
        · rfl
        · rw [hv, ha, hb, hi]
          generalize hx : ((8 / 100 * (9277 / 10000 - 36224 / 90510)) * (11239 / 10000 + 11328 / 76510) /
            (21539633 / 100000000 / (3 / 100 * (3 / 100)) + 11051 / 1000) : ℝ) = x
          have hx0 : 0 < x := by rw [← hx]; norm_num
          have h1 := log16 x hx0
          have h2 := le_log_of (65536 / x) (by positivity) 96 5 (by norm_num) (by rw [← hx]; norm_num)
          rw [← h1] at h2
          have h3 : (31780538303479458 / 10 ^ 16 : ℝ) ≤ 32 / 10 := by norm_num
          push_cast at h2
          linarith
      unfold call
      rw [good16.2, if_neg (by simp), rounds.eq_def, hr]
      rfl
    · have hr : roundConst int32 U dist16 0 = some (none, 2) := by
        unfold roundConst
        dsimp only
        rw [d0, if_neg c1, if_neg c2]
        dsimp only
        rw [d1, hu]
        show (tail int32 dist16 (-(47 / 100)) (8 / 100)).bind _ = _
        rw [tail16 _ (by norm_num), if_neg]
        · rfl
        · rw [ha, hb, hi, not_le]
          generalize hx : ((8 / 100) * (11239 / 10000 + 11328 / 76510) /
            (21539633 / 100000000 / (3 / 100 * (3 / 100)) + 11051 / 1000) : ℝ) = x
          have hx0 : 0 < x := by rw [← hx]; norm_num
          have h1 := log16 x hx0
          have h2 := log_le_of (65536 / x) (by positivity) 191 10 (by norm_num) (by rw [← hx]; norm_num)
          rw [← h1] at h2
          have h3 : (317 / 100 : ℝ) ≤ 31780538303479458 / 10 ^ 16 := by norm_num
          push_cast at h2
          linarith
      have hr2 : roundConst int32 U dist16 2 = some (some 16, 3) := by
        unfold roundConst
        dsimp only
        rw [d2, if_pos (by rw [le_real, lit_real, hv]; push_cast; norm_num)]
        dsimp only
        have : toInt int32 (direct dist16 (43 / 100 * dist16.ptrd.v_r / dist16.ptrd.v_r - lit (43 / 100))) = some 16 := by
          rw [mul_div_cancel_right₀ _ (by rw [hv]; norm_num), lit_real]
          unfold direct
          simp only [lit_real, abs_real, hm]
          push_cast
          rw [sub_self, mul_zero, zero_add, floor_real, show ⌊(16 + 445 / 1000 : ℝ)⌋ = 16 by
            rw [Int.floor_eq_iff]; push_cast; constructor <;> norm_num]
          exact toInt_int int32 16 (by decide) (by decide)
        rw [this]
        rfl
      unfold callConst
      rw [good16.2, if_neg (by simp), rounds.eq_def, hr]
      show rounds _ 2 = _
      rw [rounds.eq_def, hr2]
      rfl
  refine ⟨main, fun h => ?_⟩
  obtain ⟨U, d, h1, h2, h3, h4⟩ := main
  have := h U 16 d 0 h1 h2
  rw [h3, h4] at this
  cases this

/-! Non-vacuity: `C130_inversion` with the mean 1 and the draw 1/2. -/
example : ∃ d, make (1 : ℝ) = some d ∧ ∃ n : ℕ, Quantile (poissonProb 1) (1 / 2) n ∧
    ((n : ℤ) ≤ int32.hi → call int32 (fun e : ℕ => ((1 / 2 : ℝ), e + 1)) d 0 = some ((n : ℤ), 1)) := by
  have h : make (1 : ℝ) = some ⟨1, initPtrd 1, initExpMean 1⟩ := by
    unfold make
    rw [if_pos (by rw [lt_real, lit_real]; push_cast; norm_num)]
  refine ⟨_, h, ?_⟩
  obtain ⟨n, h1, h2⟩ := C130_inversion int32 (fun e : ℕ => ((1 / 2 : ℝ), e + 1)) (fun e => by norm_num) 1 _
    (by norm_num) (by norm_num) h 0
  exact ⟨n, h1, fun hn => (h2 hn).1⟩

end Sprout
