import Verif.Proofs.RandArith
import Verif.Proofs.Stirling
import Verif.Model.Binomial

/-! helper lemmas on `binomial_distribution` in exact real arithmetic -/

namespace Sprout.RandDist.Binomial
open Arith

/-- the factor of the loops is the ratio of successive probabilities -/
theorem binomialProb_succ (t : ℕ) (p : ℝ) (hp : p < 1) (k : ℕ) :
    binomialProb t p (k + 1) = ((t + 1 : ℝ) * (p / (1 - p)) / ((k + 1 : ℕ) : ℝ) - p / (1 - p)) * binomialProb t p k := by
  unfold binomialProb
  have hq : (1 - p) ≠ 0 := by linarith
  have hk : ((k : ℝ) + 1) ≠ 0 := by positivity
  rcases Nat.lt_or_ge k t with h | h
  · have hc : (t.choose (k + 1) : ℝ) * (k + 1) = t.choose k * (t - k) := by
      have := Nat.choose_succ_right_eq t k
      have h2 : ((t.choose (k + 1) * (k + 1) : ℕ) : ℝ) = ((t.choose k * (t - k) : ℕ) : ℝ) := by rw [this]
      push_cast [Nat.cast_sub h.le] at h2
      exact h2
    have hc' : (t.choose (k + 1) : ℝ) = t.choose k * (t - k) / (k + 1) := by
      rw [eq_div_iff hk]
      exact hc
    obtain ⟨j, hj⟩ : ∃ j, t - k = j + 1 := ⟨t - k - 1, by omega⟩
    rw [show t - (k + 1) = j by omega, hj, hc', pow_succ, pow_succ]
    push_cast
    field_simp
    ring
  · rw [Nat.choose_eq_zero_of_lt (by omega : t < k + 1)]
    rcases h.eq_or_lt with h | h
    · subst h
      push_cast
      have : ((t : ℝ) + 1) * (p / (1 - p)) / (t + 1) - p / (1 - p) = 0 := by
        field_simp
        ring
      rw [this]
      ring
    · rw [Nat.choose_eq_zero_of_lt h]
      push_cast
      ring

theorem binomial_hasSum (t : ℕ) (p : ℝ) : HasSum (binomialProb t p) 1 := by
  have h : ∑ k ∈ Finset.range (t + 1), binomialProb t p k = 1 := by
    have := add_pow p (1 - p) t
    rw [add_sub_cancel, one_pow] at this
    rw [this]
    refine Finset.sum_congr rfl fun k _ => ?_
    unfold binomialProb
    ring
  rw [← h]
  refine hasSum_sum_of_ne_finset_zero fun k hk => ?_
  unfold binomialProb
  rw [Nat.choose_eq_zero_of_lt (by simpa using hk)]
  simp

/-- loop invariant: `u` has lost the probabilities of the numbers below `x` -/
theorem invertLoop_spec (T : IntTy) (t : ℕ) (p u : ℝ) (hp : p < 1) (n : ℕ) (hn : (n : ℤ) ≤ T.hi)
    (hq : Quantile (binomialProb t p) u n) :
    ∀ x : ℕ, x ≤ n → invertLoop T (p / (1 - p)) ((t + 1 : ℝ) * (p / (1 - p)))
      (u - ∑ i ∈ Finset.range x, binomialProb t p i) (x : ℤ) (binomialProb t p x) = some (n : ℤ) := by
  intro x hx
  obtain ⟨d, rfl⟩ := Nat.exists_eq_add_of_le hx
  induction d generalizing x with
  | zero =>
    rw [invertLoop.eq_def, if_neg]
    · rfl
    · rw [lt_real]
      have h := hq.1
      unfold cdf at h
      rw [Finset.sum_range_succ] at h
      linarith
  | succ d ih =>
    have h := hq.2 x (by omega)
    unfold cdf at h
    rw [Finset.sum_range_succ] at h
    rw [invertLoop.eq_def, if_pos (by rw [lt_real]; linarith)]
    have e1 : incr T (x : ℤ) = some ((x + 1 : ℕ) : ℤ) := by
      unfold incr
      rw [if_pos (by push_cast at hn; omega)]
      push_cast
      rfl
    rw [e1]
    show invertLoop T _ _ _ _ _ = _
    have e2 : u - ∑ i ∈ Finset.range x, binomialProb t p i - binomialProb t p x
        = u - ∑ i ∈ Finset.range (x + 1), binomialProb t p i := by
      rw [Finset.sum_range_succ]; ring
    have e3 : ((t + 1 : ℝ) * (p / (1 - p)) / (lit (((x + 1 : ℕ) : ℤ) : ℚ) : ℝ) - p / (1 - p)) * binomialProb t p x
        = binomialProb t p (x + 1) := by
      rw [binomialProb_succ t p hp, lit_real]
      push_cast
      rfl
    have key := ih (x + 1) (by push_cast at *; omega) (by rw [show x + 1 + d = x + (d + 1) by omega]; exact hq) (by omega)
    rw [show x + 1 + d = x + (d + 1) by omega] at key
    rw [← key]
    show invertLoop T _ _ (_ - _ - _) _ ((_ / _ - _) * _) = _
    rw [e2, e3]

/-- the quantile of a binomial distribution is at most the number of trials -/
theorem quantile_le (t : ℕ) (p u : ℝ) (hu : u < 1) (n : ℕ) (h : Quantile (binomialProb t p) u n) : n ≤ t := by
  by_contra hc
  have h1 := h.2 t (by omega)
  have h2 : cdf (binomialProb t p) t = 1 := by
    unfold cdf
    have := add_pow p (1 - p) t
    rw [add_sub_cancel, one_pow] at this
    rw [this]
    refine Finset.sum_congr rfl fun k _ => ?_
    unfold binomialProb
    ring
  linarith

theorem binomialProb_pos (t : ℕ) (p : ℝ) (h0 : 0 < p) (hp : p < 1) (k : ℕ) (hk : k ≤ t) : 0 < binomialProb t p k := by
  unfold binomialProb
  have h1 : 0 < t.choose k := Nat.choose_pos hk
  have h2 : 0 < 1 - p := by linarith
  positivity

theorem incr_some {T : IntTy} {i : ℤ} (h : i + 1 ≤ T.hi) : incr T i = some (i + 1) := if_pos h

/-- the loop `do … while (i != k)` multiplies by the ratio of the probabilities of `k` and `i` -/
theorem product_spec (T : IntTy) (t : ℕ) (p : ℝ) (h0 : 0 < p) (hp : p < 1) (d : ℕ) : ∀ (i : ℕ) (f : ℝ), i + d + 1 ≤ t →
    ((i + d + 1 : ℕ) : ℤ) ≤ T.hi →
    product T ((t + 1 : ℝ) * (p / (1 - p))) (p / (1 - p)) (i : ℤ) ((i + d + 1 : ℕ) : ℤ) f
      = some (f * (binomialProb t p (i + d + 1) / binomialProb t p i)) := by
  have ratio : ∀ i : ℕ, i + 1 ≤ t → ((t + 1 : ℝ) * (p / (1 - p)) / (lit (((i : ℤ) + 1 : ℤ) : ℚ) : ℝ) - p / (1 - p))
      = binomialProb t p (i + 1) / binomialProb t p i := by
    intro i hi
    have hb := binomialProb_pos t p h0 hp i (by omega)
    rw [eq_div_iff hb.ne', binomialProb_succ t p hp, lit_real]
    push_cast
    rfl
  induction d with
  | zero =>
    intro i f ht hk
    rw [product.eq_def, incr_some (by push_cast at hk; omega)]
    show (if (i : ℤ) + 1 = ((i + 0 + 1 : ℕ) : ℤ) then _ else _) = _
    rw [if_pos (by push_cast; rfl), ratio i (by omega)]
  | succ d ih =>
    intro i f ht hk
    rw [product.eq_def, incr_some (by push_cast at hk; omega)]
    show (if (i : ℤ) + 1 = ((i + (d + 1) + 1 : ℕ) : ℤ) then _ else _) = _
    rw [if_neg (by push_cast; omega), ratio i (by omega)]
    have key := ih (i + 1) (f * (binomialProb t p (i + 1) / binomialProb t p i)) (by omega) (by push_cast at *; omega)
    rw [show i + 1 + d + 1 = i + (d + 1) + 1 by omega] at key
    rw [show ((i : ℤ) + 1) = ((i + 1 : ℕ) : ℤ) by push_cast; rfl]
    rw [key]
    have hb := binomialProb_pos t p h0 hp i (by omega)
    have hb1 := binomialProb_pos t p h0 hp (i + 1) (by omega)
    congr 1
    field_simp

/-- in every arithmetic the loop of the second version, started above its end, never ends properly -/
theorem productConst_none {R : Type} [Arith R] (T : IntTy) (nr r : R) (k : ℤ) (d : ℕ) : ∀ (i : ℤ) (f : R), k < i →
    T.hi - i ≤ d → productConst T nr r i k f = none := by
  induction d with
  | zero =>
    intro i f hi hd
    rw [productConst.eq_def, if_pos (by omega)]
    show (incr T i).bind _ = none
    unfold incr
    rw [if_neg (by push_cast at hd; omega)]
    rfl
  | succ d ih =>
    intro i f hi hd
    rw [productConst.eq_def, if_pos (by omega)]
    show (incr T i).bind _ = none
    unfold incr
    split
    · exact ih (i + 1) _ (by omega) (by push_cast at hd; omega)
    · rfl

/-- in every arithmetic the two loops agree upwards -/
theorem productConst_up {R : Type} [Arith R] (T : IntTy) (nr r : R) (k : ℤ) (d : ℕ) : ∀ (i : ℤ) (f : R), k = i + d + 1 →
    product T nr r i k f = (incr T i).bind fun i' => productConst T nr r i' k (f * (nr / lit i' - r)) := by
  induction d with
  | zero =>
    intro i f hi
    rw [product.eq_def]
    show (incr T i).bind _ = _
    unfold incr
    split
    · show (if i + 1 = k then _ else _) = productConst T nr r (i + 1) k _
      rw [if_pos (by push_cast at hi; omega), productConst.eq_def, if_neg (by push_cast at hi; omega)]
    · rfl
  | succ d ih =>
    intro i f hi
    rw [product.eq_def]
    show (incr T i).bind _ = _
    by_cases h : i + 1 ≤ T.hi
    · rw [incr_some h]
      show (if i + 1 = k then _ else _) = productConst T nr r (i + 1) k _
      rw [if_neg (by push_cast at hi; omega), ih (i + 1) _ (by push_cast at hi; omega), productConst.eq_def,
        if_pos (by push_cast at hi; omega)]
      rfl
    · unfold incr
      rw [if_neg h]
      rfl

theorem initP_real (p : ℝ) : initP p = smaller p := by
  unfold initP smaller
  simp only [lt_real, lit_real]
  push_cast
  rfl

theorem smaller_le (p : ℝ) : smaller p ≤ 1 / 2 := by
  unfold smaller
  split <;> linarith

theorem smaller_nonneg {p : ℝ} (h0 : 0 ≤ p) (h1 : p ≤ 1) : 0 ≤ smaller p := by
  unfold smaller
  split <;> linarith

/-- what the constructor does -/
theorem make_some {T : IntTy} {t : ℕ} {p : ℝ} {d : BDist ℝ} (h : make T (t : ℤ) p = some d) :
    0 ≤ p ∧ p ≤ 1 ∧ (t : ℤ) + 1 ≤ T.hi ∧ d.t = t ∧ d.p = p ∧ d.m = ⌊((t : ℝ) + 1) * smaller p⌋ ∧
    d.btrd = (if d.m < 11 then zeroBtrd else initBtrd1 (t : ℤ) ((t : ℤ) + 1) (smaller p)) ∧
    d.q_n = (if d.m < 11 then initQn (t : ℤ) p else lit 0) := by
  unfold make at h
  split at h
  · rename_i hc
    rw [Bool.and_eq_true, le_real, le_real, lit_real, lit_real] at hc
    have h0 : 0 ≤ p := by have := hc.2.1; push_cast at this; exact this
    have h1 : p ≤ 1 := by have := hc.2.2; push_cast at this; exact this
    rw [Option.bind_eq_bind, Option.bind_eq_some_iff] at h
    obtain ⟨t1, ht1, h⟩ := h
    rw [Option.bind_eq_some_iff] at h
    obtain ⟨m, hm, h⟩ := h
    injection h with h
    unfold incr at ht1
    split at ht1
    · rename_i hh
      injection ht1 with ht1
      subst ht1
      have hm' : m = ⌊((t : ℝ) + 1) * smaller p⌋ := by
        unfold initM at hm
        rw [incr_some hh] at hm
        have h2 := (toInt_some (show toInt T (lit (((t : ℤ) + 1 : ℤ) : ℚ) * initP p) = some m from hm)).1
        rw [initP_real, lit_real] at h2
        push_cast at h2
        rw [if_pos (mul_nonneg (by positivity) (smaller_nonneg h0 h1))] at h2
        exact h2
      subst h
      refine ⟨h0, h1, hh, rfl, rfl, hm', ?_, rfl⟩
      rw [initP_real]
    · cases ht1
  · cases h

/-- the members for the rejection method -/
structure Good (t : ℕ) (p : ℝ) (d : BDist ℝ) (s : ℝ) : Prop where
  p0 : 0 < p
  p1 : p ≤ 1 / 2
  hs : 9 / 4 ≤ s
  sq : s * s = t * p * (1 - p)
  tt : d.t = t
  m0 : 11 ≤ d.m
  mt : d.m ≤ t
  r : d.btrd.r = p / (1 - p)
  nr : d.btrd.nr = (t + 1) * (p / (1 - p))
  npq : d.btrd.npq = t * p * (1 - p)
  b : d.btrd.b = 115 / 100 + 253 / 100 * s
  a : d.btrd.a = -(873 / 10000) + 248 / 10000 * d.btrd.b + 1 / 100 * p
  c : d.btrd.c = t * p + 1 / 2
  alpha : d.btrd.alpha = (283 / 100 + 51 / 10 / d.btrd.b) * s
  v_r : d.btrd.v_r = 92 / 100 - 42 / 10 / d.btrd.b
  u_rv_r : d.btrd.u_rv_r = 86 / 100 * d.btrd.v_r

theorem make_good {T : IntTy} {t : ℕ} {p : ℝ} {d : BDist ℝ} (h : make T (t : ℤ) p = some d) (hm : ¬ d.m < 11) :
    Good t (smaller p) d (Real.sqrt (t * smaller p * (1 - smaller p))) := by
  obtain ⟨h0, h1, hh, ht, hp, hmm, hb, _⟩ := make_some h
  rw [if_neg hm] at hb
  have q1 := smaller_le p
  have q0 := smaller_nonneg h0 h1
  have hm11 : (11 : ℝ) ≤ ((t : ℝ) + 1) * smaller p := by
    have : (11 : ℤ) ≤ ⌊((t : ℝ) + 1) * smaller p⌋ := by omega
    have := Int.le_floor.1 this
    exact_mod_cast this
  have qpos : 0 < smaller p := by
    rcases q0.eq_or_lt with h | h
    · rw [← h] at hm11; norm_num at hm11
    · exact h
  have htp : 21 / 2 ≤ t * smaller p := by nlinarith
  have hnn : 21 / 4 ≤ t * smaller p * (1 - smaller p) := by nlinarith
  refine ⟨qpos, q1, ?_, Real.mul_self_sqrt (by linarith), ht, by omega, ?_, ?_, ?_, ?_, ?_, ?_, ?_, ?_, ?_, ?_⟩
  · rw [show (9 / 4 : ℝ) = Real.sqrt ((9 / 4) ^ 2) by rw [Real.sqrt_sq (by norm_num)]]
    exact Real.sqrt_le_sqrt (by linarith)
  · rw [hmm]
    have h2 : ((t : ℝ) + 1) * smaller p < ((t + 1 : ℤ) : ℝ) := by
      push_cast
      nlinarith [(by positivity : (0 : ℝ) ≤ t)]
    have := Int.floor_lt.2 h2
    omega
  all_goals
    rw [hb]
    simp only [initBtrd1, lit_real, sqrt_real] <;> push_cast <;> rfl

theorem Good.b_pos {t : ℕ} {p : ℝ} {d : BDist ℝ} {s : ℝ} (g : Good t p d s) : 6 ≤ d.btrd.b := by
  have := g.hs
  rw [g.b]
  linarith

theorem Good.v_r_pos {t : ℕ} {p : ℝ} {d : BDist ℝ} {s : ℝ} (g : Good t p d s) : 1 / 5 ≤ d.btrd.v_r := by
  have hb := g.b_pos
  rw [g.v_r]
  have : 42 / 10 / d.btrd.b ≤ 7 / 10 := by
    rw [div_le_iff₀ (by linarith)]
    linarith
  linarith

/-- the value of the immediate acceptance is in the range -/
theorem Good.direct_range {t : ℕ} {p : ℝ} {d : BDist ℝ} {s : ℝ} (g : Good t p d s) {u : ℝ} (h1 : -(43 / 100) ≤ u) (h2 : u ≤ 43 / 100) :
    0 ≤ (2 * d.btrd.a / (1 / 2 - |u|) + d.btrd.b) * u + d.btrd.c ∧
    (2 * d.btrd.a / (1 / 2 - |u|) + d.btrd.b) * u + d.btrd.c < t + 1 := by
  have hs := g.hs
  have hb := g.b_pos
  have p0 := g.p0
  have p1 := g.p1
  have ha : 0 ≤ d.btrd.a := by rw [g.a]; linarith
  have hu : |u| ≤ 43 / 100 := abs_le.2 ⟨h1, h2⟩
  have hq : 2 * d.btrd.a / (1 / 2 - |u|) ≤ 2 * d.btrd.a / (7 / 100) :=
    div_le_div_of_nonneg_left (by linarith) (by norm_num) (by linarith)
  have hq0 : 0 ≤ 2 * d.btrd.a / (1 / 2 - |u|) := div_nonneg (by linarith) (by linarith)
  have h4 : (2 * d.btrd.a / (7 / 100) + d.btrd.b) * (43 / 100) ≤ 186 / 100 * s - 16 / 100 := by
    rw [g.a, g.b]
    linarith
  have h3 : |(2 * d.btrd.a / (1 / 2 - |u|) + d.btrd.b) * u| ≤ (2 * d.btrd.a / (7 / 100) + d.btrd.b) * (43 / 100) := by
    rw [abs_mul, abs_of_nonneg (by linarith : 0 ≤ 2 * d.btrd.a / (1 / 2 - |u|) + d.btrd.b)]
    exact mul_le_mul (by linarith) hu (abs_nonneg _) (by linarith)
  have h5 := abs_le.1 (le_trans h3 h4)
  have sq := g.sq
  have htp : (0 : ℝ) ≤ t * p := by positivity
  have h6 : s * s ≤ t * p := by nlinarith
  have h7 : t * p ≤ t * (1 - p) := mul_le_mul_of_nonneg_left (by linarith) (by positivity)
  rw [g.c]
  constructor
  · nlinarith [h5.1]
  · nlinarith [h5.2]

theorem toInt_floor {T : IntTy} {x : ℝ} {n : ℤ} (h : toInt T ((⌊x⌋ : ℤ) : ℝ) = some n) : n = ⌊x⌋ := by
  have := (toInt_some h).1
  rw [Int.floor_intCast, Int.ceil_intCast, ite_self] at this
  exact this

theorem tail_range (nr : ℝ → ℤ → Option Bool) (T : IntTy) (d : BDist ℝ) (u v : ℝ) (n : ℤ)
    (h : tail nr T d u v = some (some n)) : 0 ≤ n ∧ n ≤ d.t := by
  unfold tail at h
  dsimp only at h
  rw [Option.bind_eq_bind, Option.bind_eq_some_iff] at h
  obtain ⟨k, _, h⟩ := h
  split at h
  · cases h
  · rename_i hc
    split at h <;>
    · rw [Option.bind_eq_bind, Option.bind_eq_some_iff] at h
      obtain ⟨acc, _, h⟩ := h
      cases acc
      · cases h
      · rw [if_pos rfl] at h
        injection h with h
        injection h with h
        omega

theorem round_range {E : Type} (nr : ℝ → ℤ → Option Bool) (T : IntTy) (U : E → ℝ × E) (hU : Uniform U) {t : ℕ} {p : ℝ}
    {d : BDist ℝ} {s : ℝ} (g : Good t p d s) (e e' : E) (n : ℤ) (h : round nr T U d e = some (some n, e')) : 0 ≤ n ∧ n ≤ t := by
  unfold RandDist.Binomial.round at h
  dsimp only at h
  split at h
  · rename_i hc
    rw [le_real, g.u_rv_r] at hc
    rw [Option.bind_eq_bind, Option.bind_eq_some_iff] at h
    obtain ⟨j, h1, h2⟩ := h
    cases h2
    have hv := g.v_r_pos
    have h0 : 0 ≤ (U e).1 / d.btrd.v_r := div_nonneg (hU e).1 (by linarith)
    have h2 : (U e).1 / d.btrd.v_r ≤ 86 / 100 := by
      rw [div_le_iff₀ (by linarith)]
      exact hc
    have hr := g.direct_range (u := (U e).1 / d.btrd.v_r - 43 / 100) (by linarith) (by linarith)
    unfold direct at h1
    simp only [floor_real, lit_real, abs_real] at h1
    push_cast at h1
    rw [toInt_floor h1]
    have h3 := Int.floor_nonneg.2 hr.1
    have h4 : ⌊(2 * d.btrd.a / (1 / 2 - |(U e).1 / d.btrd.v_r - 43 / 100|) + d.btrd.b) * ((U e).1 / d.btrd.v_r - 43 / 100) + d.btrd.c⌋ < (t : ℤ) + 1 := by
      rw [Int.floor_lt]
      push_cast
      exact hr.2
    exact ⟨h3, by omega⟩
  · split at h <;>
    · rw [Option.bind_eq_bind, Option.bind_eq_some_iff] at h
      obtain ⟨j, h1, h2⟩ := h
      cases h2
      rw [← g.tt]
      exact tail_range _ _ _ _ _ _ h1

theorem log_factorial_eq (k : ℕ) : Real.log (k.factorial : ℝ)
    = stirlingCorrection k + (Real.log (2 * Real.pi) / 2 + (k + 1 / 2) * Real.log (k + 1) - (k + 1)) := by
  unfold stirlingCorrection
  ring

theorem log_binomialProb (t k : ℕ) (p : ℝ) (h0 : 0 < p) (hp : p < 1) (hk : k ≤ t) : Real.log (binomialProb t p k)
    = Real.log (t.factorial : ℝ) - Real.log (k.factorial : ℝ) - Real.log ((t - k).factorial : ℝ)
      + k * Real.log (p / (1 - p)) + t * Real.log (1 - p) := by
  have hq : 0 < 1 - p := by linarith
  unfold binomialProb
  have hc : (t.choose k : ℝ) = t.factorial / (k.factorial * (t - k).factorial) := Nat.cast_choose ℝ hk
  rw [hc, Real.log_mul (by positivity) (by positivity), Real.log_mul (by positivity) (by positivity),
    Real.log_div (by positivity) (by positivity), Real.log_mul (by positivity) (by positivity), Real.log_pow, Real.log_pow,
    Real.log_div h0.ne' hq.ne', Nat.cast_sub hk]
  ring

/-- the right side of the last test is the logarithm of the ratio of the probabilities -/
theorem log_ratio (t m k : ℕ) (p : ℝ) (h0 : 0 < p) (hp : p < 1) (hm : m ≤ t) (hk : k ≤ t) :
    Real.log (binomialProb t p k / binomialProb t p m)
      = (m + 1 / 2) * Real.log ((m + 1) / (p / (1 - p) * (t - m + 1))) + stirlingCorrection m + stirlingCorrection (t - m)
      + (t + 1) * Real.log ((t - m + 1) / (t - k + 1))
      + (k + 1 / 2) * Real.log ((t - k + 1) * (p / (1 - p)) / (k + 1)) - stirlingCorrection k - stirlingCorrection (t - k) := by
  have hq : 0 < 1 - p := by linarith
  have hr : 0 < p / (1 - p) := by positivity
  have hm' : (m : ℝ) ≤ t := by exact_mod_cast hm
  have hk' : (k : ℝ) ≤ t := by exact_mod_cast hk
  have n1 : (0 : ℝ) < (t : ℝ) - m + 1 := by linarith
  have n2 : (0 : ℝ) < (t : ℝ) - k + 1 := by linarith
  have n3 : (0 : ℝ) < (m : ℝ) + 1 := by positivity
  have n4 : (0 : ℝ) < (k : ℝ) + 1 := by positivity
  rw [Real.log_div (binomialProb_pos t p h0 hp k hk).ne' (binomialProb_pos t p h0 hp m hm).ne',
    log_binomialProb t k p h0 hp hk, log_binomialProb t m p h0 hp hm, log_factorial_eq k, log_factorial_eq m,
    log_factorial_eq (t - k), log_factorial_eq (t - m), Nat.cast_sub hk, Nat.cast_sub hm]
  generalize p / (1 - p) = r at *
  rw [Real.log_div n3.ne' (by positivity), Real.log_mul hr.ne' n1.ne', Real.log_div n1.ne' n2.ne',
    Real.log_div (by positivity) n4.ne', Real.log_mul n2.ne' hr.ne']
  ring

end Sprout.RandDist.Binomial
