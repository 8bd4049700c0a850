import Verif.Proofs.Binomial
import Verif.Proofs.QuantileLaw

/-!
# C131: binomial distribution

`U` draws a uniform number: its values are at least 0 and below 1. Statements over every `Arith R` hold
for every arithmetic, among them that of `double`; the others are about exact real numbers.
-/

namespace Sprout
open RandDist RandDist.Binomial Arith

/-- If the mode is below eleven both versions draw one number `u`, take the `u`-quantile `n` of the binomial
distribution with the smaller probability `p` or `1 - p`, which is at most `t`, and return `n` or `t - n`. -/
theorem C131_inversion {E : Type} (T : IntTy) (U : E → ℝ × E) (hU : Uniform U) (t : ℕ) (p : ℝ) (d : BDist ℝ)
    (hd : make T (t : ℤ) p = some d) (hm : ((t : ℝ) + 1) * smaller p < 11) (e : E) :
    ∃ n : ℕ, n ≤ t ∧ Quantile (binomialProb t (smaller p)) (U e).1 n ∧
      call T U d e = some (if 1 / 2 < p then (t : ℤ) - n else n, (U e).2) ∧
      callConst T U d e = some (if 1 / 2 < p then (t : ℤ) - n else n, (U e).2) := by
  obtain ⟨h0, h1, hh, ht, hp, hmm, _, hq⟩ := make_some hd
  have hm' : d.m < 11 := by
    rw [hmm, Int.floor_lt]
    exact_mod_cast hm
  have q1 := smaller_le p
  obtain ⟨n, hn⟩ := quantile_exists _ (binomial_hasSum t (smaller p)) (U e).1 (hU e).2
  have hnt := quantile_le t _ _ (hU e).2 n hn
  refine ⟨n, hnt, hn, ?_⟩
  have key := invertLoop_spec T t (smaller p) (U e).1 (by linarith) n (by omega) hn 0 (Nat.zero_le _)
  have e0 : binomialProb t (smaller p) 0 = d.q_n := by
    rw [hq, if_pos hm']
    unfold initQn
    rw [initP_real]
    show _ = ((lit 1 : ℝ) - smaller p) ^ (lit ((t : ℤ) : ℚ) : ℝ)
    rw [lit_real, lit_real]
    push_cast
    rw [Real.rpow_natCast]
    simp [binomialProb]
  rw [Finset.range_zero, Finset.sum_empty, sub_zero, e0] at key
  have hi : ∀ x : ℝ, x = smaller p → invert T U d x e = some ((n : ℤ), (U e).2) := by
    intro x hx
    unfold invert
    rw [ht, incr_some hh, hx]
    show (invertLoop T (smaller p / ((lit 1 : ℝ) - smaller p)) ((lit (((t : ℤ) + 1 : ℤ) : ℚ) : ℝ) * (smaller p / ((lit 1 : ℝ) - smaller p)))
      (U e).1 0 d.q_n).bind _ = _
    rw [lit_real, lit_real]
    push_cast
    rw [show ((0 : ℕ) : ℤ) = 0 from rfl] at key
    rw [key]
    rfl
  have hc : call T U d e = (if 1 / 2 < p then flip (t : ℤ) (invert T U d (1 - p) e) else invert T U d p e) := by
    unfold call
    rw [if_pos hm', hp, ht]
    simp only [lt_real, lit_real]
    push_cast
    rfl
  have hcc : callConst T U d e = call T U d e := by
    unfold callConst call
    rw [if_pos hm', if_pos hm']
  rw [hcc, hc]
  by_cases hp2 : 1 / 2 < p
  · rw [if_pos hp2, if_pos hp2, hi (1 - p) (by unfold smaller; rw [if_pos hp2])]
    exact ⟨rfl, rfl⟩
  · rw [if_neg hp2, if_neg hp2, hi p (by unfold smaller; rw [if_neg hp2])]
    exact ⟨rfl, rfl⟩

/-- `n` successes with the probability `1 - p` are as probable as `t - n` with `p`. -/
theorem C131_symmetry (t n : ℕ) (p : ℝ) (h : n ≤ t) : binomialProb t (1 - p) n = binomialProb t p (t - n) := by
  unfold binomialProb
  rw [Nat.choose_symm h, Nat.sub_sub_self h]
  ring

/-- With a mode below eleven a uniform draw gives the value `j` with the probability of the binomial distribution. -/
theorem C131_law (T : IntTy) (t : ℕ) (p : ℝ) (d : BDist ℝ) (hd : make T (t : ℤ) p = some d)
    (hm : ((t : ℝ) + 1) * smaller p < 11) (j : ℕ) (hj : j ≤ t) :
    MeasureTheory.volume {u : ℝ | u ∈ Set.Ico 0 1 ∧ call T (fun e : Unit => (u, e)) d () = some ((j : ℤ), ())}
      = ENNReal.ofReal (binomialProb t p j) := by
  obtain ⟨h0, h1, _⟩ := make_some hd
  have q0 := smaller_nonneg h0 h1
  have q1 : 0 ≤ 1 - smaller p := by linarith [smaller_le p]
  have hpr : binomialProb t p j = binomialProb t (smaller p) (if 1 / 2 < p then t - j else j) := by
    unfold smaller
    split
    · rw [C131_symmetry t (t - j) p (by omega), Nat.sub_sub_self hj]
    · rfl
  rw [hpr, ← quantile_volume (binomialProb t (smaller p)) (fun k => by unfold binomialProb; positivity)
    (binomial_hasSum t (smaller p)) (if 1 / 2 < p then t - j else j)]
  congr 1
  ext u
  refine and_congr_right fun hu => ?_
  obtain ⟨n, hn, hq, hc, _⟩ := C131_inversion T (fun e : Unit => (u, e)) (fun _ => ⟨hu.1, hu.2⟩) t p d hd hm ()
  have hiff : call T (fun e : Unit => (u, e)) d () = some ((j : ℤ), ()) ↔ n = (if 1 / 2 < p then t - j else j) := by
    rw [hc, Option.some_inj, Prod.mk.injEq]
    split
    · constructor
      · rintro ⟨h, _⟩
        omega
      · intro h
        exact ⟨by omega, rfl⟩
    · constructor
      · rintro ⟨h, _⟩
        exact_mod_cast h
      · intro h
        exact ⟨by exact_mod_cast h, rfl⟩
  rw [hiff]
  constructor
  · intro h
    rw [← h]
    exact hq
  · intro h
    exact quantile_unique hq h

/-- The values returned by both versions are between 0 and `t`. -/
theorem C131_range {E : Type} (T : IntTy) (U : E → ℝ × E) (hU : Uniform U) (t : ℕ) (p : ℝ) (d : BDist ℝ)
    (hd : make T (t : ℤ) p = some d) (e e' : E) (n : ℤ)
    (h : call T U d e = some (n, e') ∨ callConst T U d e = some (n, e')) : 0 ≤ n ∧ n ≤ t := by
  obtain ⟨h0, h1, hh, ht, hp, hmm, _, hq⟩ := make_some hd
  by_cases hm : d.m < 11
  · have hm' : ((t : ℝ) + 1) * smaller p < 11 := by
      rw [hmm, Int.floor_lt] at hm
      exact_mod_cast hm
    obtain ⟨k, hk, _, c1, c2⟩ := C131_inversion T U hU t p d hd hm' e
    have : n = if 1 / 2 < p then (t : ℤ) - k else k := by
      rcases h with h | h
      · rw [c1] at h
        injection h with h
        exact (congrArg Prod.fst h).symm
      · rw [c2] at h
        injection h with h
        exact (congrArg Prod.fst h).symm
    rw [this]
    split <;> omega
  · have g := make_good hd hm
    have main : ∀ nr : ℝ → ℤ → Option Bool, ∀ n e', (if lt (lit (1 / 2)) d.p then flip d.t (rounds (round nr T U d) e)
        else rounds (round nr T U d) e) = some (n, e') → 0 ≤ n ∧ n ≤ t := by
      intro nr n e' h
      split at h
      · unfold RandDist.Binomial.flip at h
        rw [Option.bind_eq_bind, Option.bind_eq_some_iff] at h
        obtain ⟨⟨j, e2⟩, h2, h3⟩ := h
        have := rounds_inv _ (fun n => 0 ≤ n ∧ n ≤ (t : ℤ)) (fun e i e' h => round_range nr T U hU g e e' i h) e j e2 h2
        injection h3 with h3
        have h4 := congrArg Prod.fst h3
        dsimp only at h4
        rw [ht] at h4
        omega
      · exact rounds_inv _ (fun n => 0 ≤ n ∧ n ≤ (t : ℤ)) (fun e i e' h => round_range nr T U hU g e e' i h) e n e' h
    unfold call callConst at h
    rw [if_neg hm, if_neg hm] at h
    rcases h with h | h
    · exact main _ n e' h
    · exact main _ n e' h

/-- Near the mode the version with a reference to the engine accepts `k` exactly if `v` is at most the ratio of
the probabilities of `k` and of the mode. -/
theorem C131_ratio (T : IntTy) (t : ℕ) (p : ℝ) (d : BDist ℝ) (hd : make T (t : ℤ) p = some d)
    (hm : 11 ≤ ((t : ℝ) + 1) * smaller p) (v : ℝ) (k : ℕ) (hk : k ≤ t) :
    ∃ m : ℕ, d.m = m ∧ ∃ b, near T d v (k : ℤ) = some b ∧
      (b = true ↔ v ≤ binomialProb t (smaller p) k / binomialProb t (smaller p) m) := by
  obtain ⟨h0, h1, hh, ht, hp, hmm, _, hq⟩ := make_some hd
  have hm' : ¬ d.m < 11 := by
    rw [hmm, Int.floor_lt]
    push_cast
    linarith
  have g := make_good hd hm'
  have g0 := g.m0
  have g1 := g.mt
  have pp := g.p0
  have p1 : smaller p < 1 := by linarith [g.p1]
  obtain ⟨m, hmn⟩ : ∃ m : ℕ, d.m = m := ⟨d.m.toNat, by omega⟩
  refine ⟨m, hmn, ?_⟩
  have bk := binomialProb_pos t (smaller p) pp p1 k hk
  have bm := binomialProb_pos t (smaller p) pp p1 m (by omega)
  unfold near
  rw [g.nr, g.r, hmn]
  rcases lt_trichotomy m k with hlt | heq | hgt
  · obtain ⟨j, rfl⟩ : ∃ j, k = m + j + 1 := ⟨k - m - 1, by omega⟩
    rw [if_pos (by omega), product_spec T t _ pp p1 j m _ (by omega) (by push_cast; omega)]
    refine ⟨_, rfl, ?_⟩
    rw [le_real, lit_real]
    push_cast
    rw [one_mul]
  · subst heq
    rw [if_neg (by omega), if_neg (by omega)]
    refine ⟨_, rfl, ?_⟩
    rw [le_real, lit_real, div_self bk.ne']
    push_cast
    rfl
  · obtain ⟨j, rfl⟩ : ∃ j, m = k + j + 1 := ⟨m - k - 1, by omega⟩
    rw [if_neg (by omega), if_pos (by omega), product_spec T t _ pp p1 j k _ (by omega) (by push_cast; omega)]
    refine ⟨_, rfl, ?_⟩
    rw [le_real, lit_real, le_div_iff₀ bm, ← mul_div_assoc, div_le_iff₀ bk]
    push_cast
    rw [one_mul]

/-! ## the correction of Stirling's formula -/

/-- `fc` is the correction up to the first term left out -/
def FcFull : Prop := ∀ k : ℕ, ∃ x : ℝ, fc (k : ℤ) = some x ∧ |x - stirlingCorrection k| ≤ 1 / (1260 * (k + 1) ^ 5)

/-- The table holds factorials: `fc(0)` is 1 while the correction is at most 1/12. -/
theorem C131_fc_refuted : ¬ FcFull := by
  intro h
  obtain ⟨x, h1, h2⟩ := h 0
  have hx : x = 1 := by
    have : fc (R := ℝ) ((0 : ℕ) : ℤ) = some ((1 : ℚ) : ℝ) := rfl
    rw [this] at h1
    injection h1 with h1
    rw [← h1]
    norm_num
  have h3 := correction_le 0
  unfold s3 at h3
  have h4 := (abs_le.1 h2).2
  push_cast at h3 h4
  norm_num at h3 h4
  linarith

/-- From ten on the formula is used: at most the first term left out above the correction. -/
theorem C131_fc_partial (k : ℕ) (hk : 10 ≤ k) :
    ∃ x : ℝ, fc (k : ℤ) = some x ∧ stirlingCorrection k ≤ x ∧ x ≤ stirlingCorrection k + 1 / (1260 * ((k : ℝ) + 1) ^ 5) := by
  have e : fc (R := ℝ) (k : ℤ) = some (s3 ((k : ℝ) + 1)) := by
    unfold fc
    rw [if_neg (by omega)]
    simp only [lit_real]
    congr 1
    unfold s3
    have : (k : ℝ) + 1 ≠ 0 := by positivity
    push_cast
    field_simp
    ring
  refine ⟨_, e, correction_le k, ?_⟩
  have := le_correction k
  unfold s2 at this
  unfold s3
  linarith

/-- Far from the mode, if neither of the quick tests decides and `m`, `t - m`, `k` and `t - k` are at least ten,
`v` is compared with the logarithm of the ratio of the probabilities, up to `10 ^ -8`. -/
theorem C131_far_partial (T : IntTy) (t : ℕ) (p : ℝ) (d : BDist ℝ) (hd : make T (t : ℤ) p = some d)
    (m k : ℕ) (hm : d.m = m) (hm11 : 11 ≤ m) (hk : 10 ≤ k) (hkt : k + 10 ≤ t) (hmt : m + 10 ≤ t) (v km : ℝ)
    (hlo : ¬ v < -km * km / (2 * d.btrd.npq) - km / d.btrd.npq * (((km / 3 + 625 / 1000) * km + 1 / 6) / d.btrd.npq + 1 / 2))
    (hhi : ¬ -km * km / (2 * d.btrd.npq) + km / d.btrd.npq * (((km / 3 + 625 / 1000) * km + 1 / 6) / d.btrd.npq + 1 / 2) < v) :
    ∃ b, far d v (k : ℤ) km = some b ∧
      (v ≤ Real.log (binomialProb t (smaller p) k / binomialProb t (smaller p) m) - 1 / 10 ^ 8 → b = true) ∧
      (Real.log (binomialProb t (smaller p) k / binomialProb t (smaller p) m) + 1 / 10 ^ 8 < v → b = false) := by
  have hm' : ¬ d.m < 11 := by omega
  have g := make_good hd hm'
  have pp := g.p0
  have p1 : smaller p < 1 := by linarith [g.p1]
  obtain ⟨f1, e1, a1, b1⟩ := C131_fc_partial m (by omega)
  obtain ⟨f2, e2, a2, b2⟩ := C131_fc_partial (t - m) (by omega)
  obtain ⟨f3, e3, a3, b3⟩ := C131_fc_partial k (by omega)
  obtain ⟨f4, e4, a4, b4⟩ := C131_fc_partial (t - k) (by omega)
  have small : ∀ j : ℕ, 10 ≤ j → 1 / (1260 * ((j : ℝ) + 1) ^ 5) ≤ 1 / (2 * 10 ^ 8) := by
    intro j hj
    have hj' : (11 : ℝ) ≤ (j : ℝ) + 1 := by
      have : (10 : ℝ) ≤ j := by exact_mod_cast hj
      linarith
    have h5 := pow_le_pow_left₀ (by norm_num : (0 : ℝ) ≤ 11) hj' 5
    refine one_div_le_one_div_of_le (by norm_num) ?_
    refine le_trans ?_ (mul_le_mul_of_nonneg_left h5 (by norm_num))
    norm_num
  have c1 := small m (by omega)
  have c2 := small (t - m) (by omega)
  have c3 := small k (by omega)
  have c4 := small (t - k) (by omega)
  have hfar : far d v (k : ℤ) km = some (Arith.le v ((m + 1 / 2) * Real.log ((m + 1) / (smaller p / (1 - smaller p) * (t - m + 1))) + f1 + f2
      + (t + 1) * Real.log ((t - m + 1) / (t - k + 1))
      + (k + 1 / 2) * Real.log ((t - k + 1) * (smaller p / (1 - smaller p)) / (k + 1)) - f3 - f4)) := by
    unfold far
    simp only [lit_real, lt_real]
    push_cast
    rw [if_neg hlo, if_neg hhi, g.tt, hm, g.r]
    rw [show ((t : ℤ) - (m : ℤ)) = ((t - m : ℕ) : ℤ) by omega, show ((t : ℤ) - (k : ℤ)) = ((t - k : ℕ) : ℤ) by omega, e1, e2, e3, e4]
    rfl
  refine ⟨_, hfar, ?_⟩
  have hL : Real.log (binomialProb t (smaller p) k / binomialProb t (smaller p) m)
      = (m + 1 / 2) * Real.log ((m + 1) / (smaller p / (1 - smaller p) * (t - m + 1))) + stirlingCorrection m + stirlingCorrection (t - m)
      + (t + 1) * Real.log ((t - m + 1) / (t - k + 1))
      + (k + 1 / 2) * Real.log ((t - k + 1) * (smaller p / (1 - smaller p)) / (k + 1)) - stirlingCorrection k - stirlingCorrection (t - k) :=
    log_ratio t m k (smaller p) pp p1 (by omega) (by omega)
  rw [hL]
  have i0 : (1 / 10 ^ 8 : ℝ) = 2 * (1 / (2 * 10 ^ 8)) := by norm_num
  constructor
  · intro h
    rw [le_real]
    linarith
  · intro h
    rw [← Bool.not_eq_true, le_real, not_le]
    linarith

/-! ## the function `p` -/

/-- the value returned by `p()` is the probability -/
def BinomialPFull : Prop := ∀ (t : ℕ) (p : ℝ) (d : BDist ℝ), make int32 (t : ℤ) p = some d → ∃ n : ℤ, pFn int32 d = some n ∧ (n : ℝ) = p

theorem binomial_make_ok (T : IntTy) (t : ℕ) (p : ℝ) (h0 : 0 ≤ p) (h1 : p ≤ 1) (hl : T.lo ≤ 0) (hh : (t : ℤ) + 1 ≤ T.hi) :
    ∃ d, make T (t : ℤ) p = some d := by
  have hq := smaller_nonneg h0 h1
  have hx : 0 ≤ ((t : ℝ) + 1) * smaller p := mul_nonneg (by positivity) hq
  have hM : initM T (t : ℤ) p = some ⌊((t : ℝ) + 1) * smaller p⌋ := by
    unfold initM
    rw [incr_some hh]
    show toInt T (lit (((t : ℤ) + 1 : ℤ) : ℚ) * initP p) = _
    rw [initP_real, lit_real]
    push_cast
    refine toInt_nonneg T hx (le_trans hl (Int.floor_nonneg.2 hx)) ?_
    have : ⌊((t : ℝ) + 1) * smaller p⌋ ≤ (t : ℤ) + 1 := by
      have h2 : ((t : ℝ) + 1) * smaller p ≤ (((t : ℤ) + 1 : ℤ) : ℝ) := by
        push_cast
        nlinarith [smaller_le p, (by positivity : (0 : ℝ) ≤ t)]
      exact_mod_cast le_trans (Int.floor_le _) h2
    omega
  unfold make
  rw [if_pos (by
    rw [Bool.and_eq_true, le_real, le_real, lit_real, lit_real]
    push_cast
    exact ⟨by omega, h0, h1⟩), incr_some hh, hM]
  exact ⟨_, rfl⟩

/-- `p()` has the integer type: no value is 0.3. -/
theorem C131_p_refuted : ¬ BinomialPFull := by
  intro h
  obtain ⟨d, hd⟩ := binomial_make_ok int32 1 (3 / 10) (by norm_num) (by norm_num) (by decide) (by decide)
  obtain ⟨n, _, h2⟩ := h 1 (3 / 10) d hd
  have h3 : (10 * n : ℝ) = 3 := by linarith
  have h4 : 10 * n = 3 := by exact_mod_cast h3
  omega

/-- Right for 0 and 1 only. -/
theorem C131_p_partial (T : IntTy) (t n : ℕ) (d : BDist ℝ) (hd : make T (t : ℤ) (n : ℝ) = some d) (hl : T.lo ≤ 0) :
    pFn T d = some (n : ℤ) := by
  obtain ⟨_, h1, hh, _, hp, _⟩ := make_some hd
  have hn : n ≤ 1 := by exact_mod_cast h1
  unfold pFn
  rw [hp]
  exact toInt_int T (n : ℤ) (by omega) (by omega)

/-! ## the version for constant engines -/

/-- In every arithmetic: a value below the mode makes the loop of the version for constant engines run away
from its end. -/
theorem C131_const_undefined {R : Type} [Arith R] (T : IntTy) (d : BDist R) (v : R) (k : ℤ) (h : k < d.m) :
    nearConst T d v k = none := by
  unfold nearConst
  rw [if_neg (by omega), if_pos h]
  show (incr T k).bind _ = none
  unfold incr
  split
  · show (productConst T _ _ (k + 1) k _).bind _ = none
    rw [productConst_none T _ _ k (T.hi - (k + 1)).toNat (k + 1) _ (by omega) (by omega)]
    rfl
  · rfl

/-- In every arithmetic both versions agree from the mode on. -/
theorem C131_const_partial {R : Type} [Arith R] (T : IntTy) (d : BDist R) (v : R) (k : ℤ) (h : d.m ≤ k) :
    nearConst T d v k = near T d v k := by
  unfold nearConst near
  by_cases hk : d.m < k
  · rw [if_pos hk, if_pos hk, productConst_up T _ _ k (k - d.m - 1).toNat d.m _ (by omega)]
    cases incr T d.m <;> rfl
  · rw [if_neg hk, if_neg hk, if_neg (by omega), if_neg (by omega)]

/-- both versions return the same values -/
def BinomialAgreeFull : Prop := ∀ (T : IntTy) (U : ℕ → ℝ × ℕ) (t : ℕ) (p : ℝ) (d : BDist ℝ), Uniform U → make T (t : ℤ) p = some d →
  ∀ e, callConst T U d e = call T U d e

/-- the distribution of 64 trials with the probability 1/2 -/
theorem par64 (d : BDist ℝ) (hd : make int32 ((64 : ℕ) : ℤ) (1 / 2) = some d) : d.t = 64 ∧ d.p = 1 / 2 ∧ d.m = 32 ∧ d.btrd.nr = 65 ∧
    d.btrd.r = 1 ∧ d.btrd.b = 1127 / 100 ∧ d.btrd.a = 197196 / 1000000 ∧ d.btrd.c = 65 / 2 ∧
    d.btrd.alpha = (283 / 100 + 51 / 10 / (1127 / 100)) * 4 ∧ d.btrd.v_r = 92 / 100 - 42 / 10 / (1127 / 100) ∧
    d.btrd.u_rv_r = 86 / 100 * d.btrd.v_r := by
  obtain ⟨_, _, _, ht, hp, hmm, _⟩ := make_some hd
  have hs : smaller (1 / 2) = 1 / 2 := by unfold smaller; rw [if_neg (by norm_num)]
  have hm : d.m = 32 := by
    rw [hmm, hs, Int.floor_eq_iff]
    push_cast
    constructor <;> norm_num
  have g := make_good hd (by omega)
  rw [hs] at g
  have hq : Real.sqrt (((64 : ℕ) : ℝ) * (1 / 2) * (1 - 1 / 2)) = 4 := by
    rw [show (((64 : ℕ) : ℝ) * (1 / 2) * (1 - 1 / 2)) = 4 ^ 2 by push_cast; norm_num, Real.sqrt_sq (by norm_num)]
  rw [hq] at g
  have hb : d.btrd.b = 1127 / 100 := by rw [g.b]; norm_num
  refine ⟨ht, hp, hm, ?_, ?_, hb, ?_, ?_, ?_, ?_, g.u_rv_r⟩
  · rw [g.nr]; push_cast; norm_num
  · rw [g.r]; norm_num
  · rw [g.a, hb]; norm_num
  · rw [g.c]; push_cast; norm_num
  · rw [g.alpha, hb]
  · rw [g.v_r, hb]

theorem tail64 (nr : ℝ → ℤ → Option Bool) (d : BDist ℝ) (hd : make int32 ((64 : ℕ) : ℤ) (1 / 2) = some d) :
    tail nr int32 d (-(1 / 10)) (9 / 10) = (nr (9 / 10 * d.btrd.alpha / (d.btrd.a / (4 / 10 * (4 / 10)) + d.btrd.b)) 31).bind
      fun acc => if acc then some (some 31) else some none := by
  obtain ⟨ht, hp, hm, hn, hr, hb, ha, hc, hal, hv, huv⟩ := par64 d hd
  unfold tail
  dsimp only
  simp only [abs_real, lit_real]
  rw [show |(-(1 / 10) : ℝ)| = 1 / 10 by rw [abs_neg]; exact abs_of_pos (by norm_num)]
  have hus : ((1 / 2 : ℚ) : ℝ) - 1 / 10 = 4 / 10 := by push_cast; norm_num
  have hk : Arith.floor ((((2 : ℚ) : ℝ) * d.btrd.a / (4 / 10) + d.btrd.b) * (-(1 / 10)) + d.btrd.c) = ((31 : ℤ) : ℝ) := by
    rw [floor_real, ha, hb, hc]
    congr 1
    rw [Int.floor_eq_iff]
    push_cast
    constructor <;> norm_num
  rw [hus, hk, toInt_int int32 31 (by decide) (by decide)]
  show (if (31 : ℤ) < 0 ∨ d.t < 31 then _ else _) = _
  rw [ht, hm, if_neg (by omega)]
  rfl

/-- 64 trials with the probability 1/2, draws 0.9 and 0.4: `k` is 31, one below the mode. The version with a
reference returns 31, the version for constant engines does not end properly. -/
theorem C131_agree_refuted : ¬ BinomialAgreeFull := by
  intro h
  obtain ⟨d, hd⟩ := binomial_make_ok int32 64 (1 / 2) (by norm_num) (by norm_num) (by decide) (by decide)
  obtain ⟨ht, hp, hm, hn, hr, hb, ha, hc, hal, hv, huv⟩ := par64 d hd
  have hU : Uniform (draws (9 / 10) (4 / 10) 0) := draws_uniform (by norm_num) (by norm_num) (by norm_num)
  have hag := h int32 _ 64 (1 / 2) d hU hd 0
  have d0 : draws (9 / 10) (4 / 10) 0 0 = (9 / 10, 1) := rfl
  have d1 : draws (9 / 10) (4 / 10) 0 1 = (4 / 10, 2) := rfl
  have hround : ∀ nr, round nr int32 (draws (9 / 10) (4 / 10) 0) d 0 = (tail nr int32 d (-(1 / 10)) (9 / 10)).bind fun x => some (x, 2) := by
    intro nr
    unfold RandDist.Binomial.round
    dsimp only
    rw [d0, if_neg (by rw [le_real, huv, hv]; norm_num), if_pos (by rw [le_real, hv]; norm_num)]
    dsimp only
    rw [d1, show (4 / 10 : ℝ) - lit (1 / 2) = -(1 / 10) by rw [lit_real]; push_cast; norm_num]
    rfl
  have hnear : near int32 d (9 / 10 * d.btrd.alpha / (d.btrd.a / (4 / 10 * (4 / 10)) + d.btrd.b)) 31 = some true := by
    have hpr : ∀ v : ℝ, product int32 d.btrd.nr d.btrd.r 31 32 v = some (v * (d.btrd.nr / lit ((32 : ℤ) : ℚ) - d.btrd.r)) := by
      intro v
      rw [product.eq_def, incr_some (by decide)]
      rfl
    unfold near
    rw [hm, if_neg (by omega), if_pos (by omega), hpr]
    show some (Arith.le _ _) = some true
    congr 1
    rw [le_real, lit_real, lit_real, hn, hr, hal, ha, hb]
    push_cast
    norm_num
  have c1 : call int32 (draws (9 / 10) (4 / 10) 0) d 0 = some (31, 2) := by
    unfold call
    rw [hm, hp, if_neg (by omega), if_neg (by rw [lt_real, lit_real]; push_cast; norm_num), rounds.eq_def, hround, tail64 _ d hd, hnear]
    rfl
  have c2 : callConst int32 (draws (9 / 10) (4 / 10) 0) d 0 = none := by
    unfold callConst
    rw [hm, hp, if_neg (by omega), if_neg (by rw [lt_real, lit_real]; push_cast; norm_num), rounds.eq_def, hround, tail64 _ d hd,
      C131_const_undefined int32 d _ 31 (by omega)]
    rfl
  rw [c1, c2] at hag
  cases hag

/-- three trials with the probability 3/4 and the draw 1/2: the quantile for the probability 1/4 is 1, so 2 is returned -/
example : ∃ d, make int32 ((3 : ℕ) : ℤ) (3 / 4) = some d ∧ call int32 (fun e : ℕ => ((1 / 2 : ℝ), e + 1)) d 0 = some (2, 1) := by
  obtain ⟨d, hd⟩ := binomial_make_ok int32 3 (3 / 4) (by norm_num) (by norm_num) (by decide) (by decide)
  refine ⟨d, hd, ?_⟩
  have hs : smaller (3 / 4) = 1 / 4 := by unfold smaller; rw [if_pos (by norm_num)]; norm_num
  obtain ⟨n, h1, h2, h3, _⟩ := C131_inversion int32 (fun e : ℕ => ((1 / 2 : ℝ), e + 1)) (fun e => by norm_num) 3 (3 / 4) d hd
    (by rw [hs]; norm_num) 0
  rw [hs] at h2
  have c0 : cdf (binomialProb 3 (1 / 4)) 0 < 1 / 2 := by simp [cdf, binomialProb]; norm_num
  have c1 : 1 / 2 ≤ cdf (binomialProb 3 (1 / 4)) 1 := by simp [cdf, binomialProb, Finset.sum_range_succ]; norm_num
  have hn : n = 1 := by
    rcases n with _ | _ | n
    · exact absurd h2.1 (not_le.2 c0)
    · rfl
    · exact absurd (h2.2 1 (by omega)) (not_lt.2 c1)
  rw [h3, hn, if_pos (by norm_num)]
  rfl

end Sprout
