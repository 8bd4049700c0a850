import Verif.Proofs.MathExp
import Mathlib.Analysis.Complex.ExponentialBounds

/-! # C94: the exponential function -/

namespace Sprout

open Classical FV Fmt MathExp MathTables

namespace MathExp

variable {F C : Fmt} {t : FloatTy}

theorem exp_num (hs : F.Sub C) {x : ℝ} (hx : F.Has (.num x)) : exp F C t (.num x) = (expImpl C t (.num x)).map F.cvt := by
  have h0 := hx.1
  unfold exp
  simp only [MathClass.isnan, eq_num_num, eq_num_zero, eq_num_inf, h0, decide_true, Bool.not_true, Bool.false_eq_true, if_false]
  rw [cvt_num (hs.rep hx.2.1) (hs.lt hx.2.2) h0]

/-- the greater branch -/
theorem exp_up (hs : F.Sub C) (w : C.Big) (hf : HasFormat C t) {x : ℝ} (hx : F.Has (.num x)) (h1 : -1 < x) (h2 : x ≤ 2048) :
    ∃ v, exp F C t (.num x) = some (F.cvt v) ∧ C.Has v ∧ v.isFin ∧
      |v.val - expPoly x| ≤ C.u * (|x| + 11) * expPoly |x| := by
  have ha : |x| ≤ 2048 := abs_le.2 ⟨by linarith, h2⟩
  obtain ⟨s, s1, r, r1, r2, r3, r4⟩ := expSum_near w hf (Val.num hx.1) (hs.rep hx.2.1) ha
  refine ⟨C.add (.num 1) s, ?_, ?_, r1.isFin, ?_⟩
  · rw [exp_num hs hx]
    unfold expImpl
    rw [if_neg (by simp only [lt_num_num, not_not]; exact h1), s1]
    rfl
  · refine val_has r1 r2 (lt_of_le_of_lt (Near.abs_le r3 r4) ?_)
    have hE := expPoly_one_le (abs_nonneg x)
    have hE2 := expPoly_le (abs_nonneg x) ha
    have hrel := rel_small w ha
    have hB := B_pos
    have hu := u_pos (F := C)
    have : expPoly |x| * (1 + C.u * (|x| + 11)) ≤ 86 * B * 2 := mul_le_mul hE2 (by linarith) (by
      have := abs_nonneg x; positivity) (by linarith)
    have h5 := B_emax w
    have h6 : (2 : ℝ) ^ (C.emax - 1) < (2 : ℝ) ^ C.emax := zpow_lt_zpow_right₀ (by norm_num) (by omega)
    linarith
  · rw [r1.val]; linarith

/-- the lesser branch -/
theorem exp_down (hs : F.Sub C) (w : C.Big) (hf : HasFormat C t) {x : ℝ} (hx : F.Has (.num x)) (h1 : x ≤ -1) (h2 : -2048 ≤ x) :
    ∃ v, exp F C t (.num x) = some (F.cvt v) ∧ C.Has v ∧ v.isFin ∧
      |v.val - 1 / expPoly (-x)| ≤ C.u * (-x + 13) * (1 / expPoly (-x)) := by
  obtain ⟨s, s1, r, r1, r2, r3, r4⟩ := expInv_near w hf (Val.num hx.1).neg (hs.rep hx.2.1).neg (by linarith) (by linarith)
  refine ⟨C.div (.num 1) (C.add (.num 1) s), ?_, ?_, r1.isFin, ?_⟩
  · rw [exp_num hs hx]
    unfold expImpl
    rw [if_pos (by simp only [lt_num_num]; linarith), s1]
    rfl
  · refine val_has r1 r2 (lt_of_le_of_lt r4 ?_)
    have := w.emax
    calc (2 : ℝ) = (2 : ℝ) ^ (1 : ℤ) := by norm_num
      _ < _ := zpow_lt_zpow_right₀ (by norm_num) (by omega)
  · rw [r1.val]; exact r3

end MathExp

/-- special values -/
theorem C94_exp_special (F C : Fmt) (t : FloatTy) : exp F C t .nan = some .nan ∧ exp F C t (.inf true) = some (.zero false) ∧
    exp F C t (.inf false) = some (.inf false) ∧ ∀ s, exp F C t (.zero s) = some (.num 1) := by
  refine ⟨?_, ?_, ?_, ?_⟩ <;> simp [exp, MathClass.isnan]

/-- For arguments of up to 2048, `exp` is near the Taylor polynomial `P` of degree 85, or the reciprocal of `P (-x)` for
`x ≤ -1`; it does not overflow on the way. -/
theorem C94_exp_series (F C : Fmt) (t : FloatTy) (hs : F.Sub C) (w : C.Big) (hf : HasFormat C t) (x : ℝ)
    (hx : F.Has (.num x)) (h : |x| ≤ 2048) : ∃ v, exp F C t (.num x) = some (F.cvt v) ∧ C.Has v ∧ v.isFin ∧
      (-1 < x → |v.val - ∑ n ∈ Finset.range 86, x ^ n / n.factorial| ≤
        (2 : ℝ) ^ (-(C.p : ℤ)) * (|x| + 11) * ∑ n ∈ Finset.range 86, |x| ^ n / n.factorial) ∧
      (x ≤ -1 → |v.val - 1 / ∑ n ∈ Finset.range 86, |x| ^ n / n.factorial| ≤
        (2 : ℝ) ^ (-(C.p : ℤ)) * (|x| + 13) * (1 / ∑ n ∈ Finset.range 86, |x| ^ n / n.factorial)) := by
  have h' := abs_le.1 h
  rcases lt_or_ge (-1) x with h1 | h1
  · obtain ⟨v, v1, v2, v3, v4⟩ := exp_up (t := t) hs w hf hx h1 h'.2
    exact ⟨v, v1, v2, v3, fun _ => v4, fun h2 => absurd h1 (not_lt.2 h2)⟩
  · obtain ⟨v, v1, v2, v3, v4⟩ := exp_down (t := t) hs w hf hx h1 h'.1
    refine ⟨v, v1, v2, v3, fun h2 => absurd h1 (not_le.2 h2), fun _ => ?_⟩
    rw [abs_of_nonpos (show x ≤ 0 by linarith)]
    exact v4

namespace MathExp

/-- the rest of the series -/
theorem rest_le {x : ℝ} (h0 : 0 ≤ x) (h : x ≤ 25) : x ^ 86 / (86 : ℕ).factorial * 2 ≤ (2 : ℝ) ^ (-64 : ℤ) * Real.exp x := by
  have h1 : x ^ 25 / (25 : ℕ).factorial ≤ Real.exp x := by
    refine le_trans ?_ (Real.sum_le_exp_of_nonneg h0 26)
    have h9 : (25 : ℕ) ∈ Finset.range 26 := by decide
    exact Finset.single_le_sum (f := fun i : ℕ => x ^ i / (i.factorial : ℝ)) (fun i _ => by positivity) h9
  have h2 : x ^ 61 ≤ 25 ^ 61 := pow_le_pow_left₀ h0 h 61
  have h3 : (25 : ℝ) ^ 61 * (25 : ℕ).factorial * 2 * 2 ^ 64 ≤ (86 : ℕ).factorial := by
    have : 25 ^ 61 * (25 : ℕ).factorial * 2 * 2 ^ 64 ≤ (86 : ℕ).factorial := by decide +kernel
    exact_mod_cast this
  have hf : (0 : ℝ) < (86 : ℕ).factorial := by exact_mod_cast Nat.factorial_pos 86
  have hg : (0 : ℝ) < (25 : ℕ).factorial := by exact_mod_cast Nat.factorial_pos 25
  have hx25 : 0 ≤ x ^ 25 := by positivity
  generalize ((86 : ℕ).factorial : ℝ) = f at *
  generalize ((25 : ℕ).factorial : ℝ) = g at *
  have e : (2 : ℝ) ^ (-64 : ℤ) = 1 / 2 ^ 64 := by norm_num
  rw [e]
  have h4 : x ^ 86 / f * 2 ≤ 1 / 2 ^ 64 * (x ^ 25 / g) := by
    rw [div_mul_div_comm, one_mul, div_mul_eq_mul_div, div_le_div_iff₀ hf (by positivity), show 86 = 25 + 61 by norm_num, pow_add]
    have h5 : x ^ 25 * x ^ 61 ≤ x ^ 25 * 25 ^ 61 := mul_le_mul_of_nonneg_left h2 hx25
    have h6 := mul_le_mul_of_nonneg_right h5 (show 0 ≤ 2 * (2 ^ 64 * g) by positivity)
    have h7 := mul_le_mul_of_nonneg_left h3 hx25
    linarith
  refine le_trans h4 (mul_le_mul_of_nonneg_left h1 (by positivity))

theorem exp_sum_nat (x N M : ℕ) (h : N ≤ M + 1) :
    ∑ n ∈ Finset.range N, (x : ℝ) ^ n / n.factorial =
      ((∑ n ∈ Finset.range N, x ^ n * (M.factorial / n.factorial) : ℕ) : ℝ) / M.factorial := by
  push_cast
  rw [Finset.sum_div]
  refine Finset.sum_congr rfl fun n hn => ?_
  rw [Finset.mem_range] at hn
  have h1 : n.factorial ∣ M.factorial := Nat.factorial_dvd_factorial (by omega)
  have h2 : (n.factorial : ℝ) ≠ 0 := by exact_mod_cast Nat.factorial_ne_zero n
  have h3 : (M.factorial : ℝ) ≠ 0 := by exact_mod_cast Nat.factorial_ne_zero M
  rw [Nat.cast_div h1 h2]
  field_simp

theorem poly_100 : 11 * expPoly 100 ≤ Real.exp 100 := by
  have h1 := Real.sum_le_exp_of_nonneg (show (0 : ℝ) ≤ 100 by norm_num) 140
  have h2 := exp_sum_nat 100 140 140 (by norm_num)
  have h3 := exp_sum_nat 100 86 140 (by norm_num)
  push_cast at h2 h3
  have h4 : 11 * ∑ n ∈ Finset.range 86, 100 ^ n * ((140 : ℕ).factorial / n.factorial) ≤
      ∑ n ∈ Finset.range 140, 100 ^ n * ((140 : ℕ).factorial / n.factorial) := by decide +kernel
  refine le_trans ?_ h1
  unfold expPoly
  have h5 : (0 : ℝ) < (140 : ℕ).factorial := by exact_mod_cast Nat.factorial_pos 140
  rw [h2, h3, ← mul_div_assoc]
  refine div_le_div_of_nonneg_right ?_ (le_of_lt h5)
  exact_mod_cast h4

end MathExp

/-- For arguments of up to 25, `exp` has a relative error of at most 128 half epsilons of a type of computation with at most
64 bits. Missing: larger arguments, see `C94_exp_refuted`. -/
theorem C94_exp_partial (F C : Fmt) (t : FloatTy) (hs : F.Sub C) (w : C.Big) (hf : HasFormat C t) (hp : C.p ≤ 64) (x : ℝ)
    (hx : F.Has (.num x)) (h : |x| ≤ 25) : ∃ v, exp F C t (.num x) = some (F.cvt v) ∧ C.Has v ∧ v.isFin ∧
      |v.val - Real.exp x| ≤ (2 : ℝ) ^ (7 - (C.p : ℤ)) * Real.exp x := by
  have hu := u_pos (F := C)
  have hu8 := w.u_small
  have hx0 := abs_nonneg x
  have h' := abs_le.1 h
  have hr := rest_le hx0 h
  have hpol := exp_poly (x := x) (by linarith)
  have h64 : (2 : ℝ) ^ (-64 : ℤ) ≤ C.u := zpow_le_zpow_right₀ (by norm_num) (by omega)
  have e7 : (2 : ℝ) ^ (7 - (C.p : ℤ)) = 128 * C.u := by
    unfold u
    rw [sub_eq_add_neg, zpow_add₀ (by norm_num)]
    norm_num
  rw [e7]
  have hE := Real.exp_pos |x|
  have hr' : |x| ^ 86 / (86 : ℕ).factorial * 2 ≤ C.u * Real.exp |x| := le_trans hr (mul_le_mul_of_nonneg_right h64 (le_of_lt hE))
  have hPE := expPoly_le_exp hx0
  rcases lt_or_ge (-1) x with h1 | h1
  · obtain ⟨v, v1, v2, v3, v4⟩ := exp_up (t := t) hs w hf hx h1 (by linarith)
    refine ⟨v, v1, v2, v3, ?_⟩
    have hsum : |v.val - Real.exp x| ≤ C.u * (|x| + 12) * Real.exp |x| := by
      have e : v.val - Real.exp x = (v.val - expPoly x) + -(Real.exp x - expPoly x) := by ring
      rw [e]
      have h2 := abs_add_le (v.val - expPoly x) (-(Real.exp x - expPoly x))
      rw [abs_neg] at h2
      have h3 := mul_le_mul_of_nonneg_left hPE (show 0 ≤ C.u * (|x| + 11) by positivity)
      linarith
    refine le_trans hsum ?_
    rcases le_or_gt 0 x with h2 | h2
    · rw [abs_of_nonneg h2]
      refine mul_le_mul_of_nonneg_right ?_ (le_of_lt (Real.exp_pos x))
      nlinarith
    · rw [abs_of_neg h2]
      have h3 : Real.exp (-x) ≤ 7.4 * Real.exp x := by
        have e1 : Real.exp (-x) = Real.exp (-x + -x) * Real.exp x := by rw [← Real.exp_add]; congr 1; ring
        have e2 : Real.exp (-x + -x) ≤ 7.4 := by
          have h4 : Real.exp (-x + -x) ≤ Real.exp (1 + 1) := Real.exp_le_exp.2 (by linarith)
          rw [Real.exp_add 1 1] at h4
          have h5 := Real.exp_one_lt_d9
          have h6 := Real.exp_pos 1
          nlinarith
        rw [e1]
        exact mul_le_mul_of_nonneg_right e2 (le_of_lt (Real.exp_pos x))
      have h4 : C.u * (-x + 12) * Real.exp (-x) ≤ C.u * 13 * (7.4 * Real.exp x) :=
        mul_le_mul (mul_le_mul_of_nonneg_left (by linarith) (le_of_lt hu)) h3 (le_of_lt (Real.exp_pos _)) (by positivity)
      have h5 := mul_pos hu (Real.exp_pos x)
      nlinarith
  · obtain ⟨v, v1, v2, v3, v4⟩ := exp_down (t := t) hs w hf hx h1 (by linarith)
    refine ⟨v, v1, v2, v3, ?_⟩
    have ha : |x| = -x := abs_of_nonpos (by linarith)
    rw [ha] at hr' hPE hE
    have hpol' := exp_poly (x := -x) (by rw [abs_neg]; linarith)
    rw [abs_neg, ha] at hpol'
    have hP1 := expPoly_one_le (show 0 ≤ -x by linarith)
    have hPge : (1 - C.u) * Real.exp (-x) ≤ expPoly (-x) := by
      have := (abs_le.1 hpol').2
      linarith
    have e1 : Real.exp x = 1 / Real.exp (-x) := by rw [Real.exp_neg]; simp
    rw [e1]
    generalize Real.exp (-x) = E at *
    generalize expPoly (-x) = P at *
    have hE' : 0 < 1 / E := by positivity
    have h2 : 1 / P ≤ (1 + 2 * C.u) * (1 / E) := by
      rw [mul_one_div, div_le_div_iff₀ (by linarith) hE]
      have h3 : 1 ≤ (1 + 2 * C.u) * (1 - C.u) := by nlinarith
      have h4 := mul_le_mul_of_nonneg_left hPge (show 0 ≤ 1 + 2 * C.u by linarith)
      have h5 := mul_le_mul_of_nonneg_right h3 (le_of_lt hE)
      linarith
    have h3 : 1 / E ≤ 1 / P := one_div_le_one_div_of_le (by linarith) hPE
    have e2 : v.val - 1 / E = (v.val - 1 / P) + (1 / P - 1 / E) := by ring
    rw [e2]
    have h4 := abs_add_le (v.val - 1 / P) (1 / P - 1 / E)
    rw [abs_of_nonneg (show 0 ≤ 1 / P - 1 / E by linarith)] at h4
    have h5 : C.u * (-x + 13) * (1 / P) ≤ C.u * 38 * ((1 + 2 * C.u) * (1 / E)) :=
      mul_le_mul (mul_le_mul_of_nonneg_left (by linarith) (le_of_lt hu)) h2 (by positivity) (by positivity)
    have h6 : C.u * 38 * ((1 + 2 * C.u) * (1 / E)) ≤ C.u * 38 * (2 * (1 / E)) :=
      mul_le_mul_of_nonneg_left (mul_le_mul_of_nonneg_right (by linarith) (le_of_lt hE')) (by positivity)
    have h7 := mul_pos hu hE'
    linarith

/-- `exp(100)` is less than a tenth of `e ^ 100`, and `exp(-100)` is more than tenfold `e ^ -100`. -/
theorem C94_exp_refuted (F C : Fmt) (t : FloatTy) (hs : F.Sub C) (w : C.Big) (hf : HasFormat C t)
    (hx : F.Has (.num 100)) (hx' : F.Has (.num (-100))) :
    (∃ v, exp F C t (.num 100) = some (F.cvt v) ∧ v.isFin ∧ v.val < Real.exp 100 / 10) ∧
    (∃ v, exp F C t (.num (-100)) = some (F.cvt v) ∧ v.isFin ∧ 10 * Real.exp (-100) < v.val) := by
  have hu := u_pos (F := C)
  have hu8 := w.u_small
  have hp := poly_100
  have hP1 := expPoly_one_le (show (0 : ℝ) ≤ 100 by norm_num)
  constructor
  · obtain ⟨v, v1, v2, v3, v4⟩ := exp_up (t := t) hs w hf hx (by norm_num) (by norm_num)
    refine ⟨v, v1, v3, ?_⟩
    rw [abs_of_pos (by norm_num : (0 : ℝ) < 100)] at v4
    have := (abs_le.1 v4).2
    have h1 : C.u * (100 + 11) * expPoly 100 ≤ 1 / 1000 * expPoly 100 := mul_le_mul_of_nonneg_right (by linarith) (by linarith)
    linarith
  · obtain ⟨v, v1, v2, v3, v4⟩ := exp_down (t := t) hs w hf hx' (by norm_num) (by norm_num)
    refine ⟨v, v1, v3, ?_⟩
    rw [neg_neg] at v4
    have := (abs_le.1 v4).1
    have hi : 0 < 1 / expPoly 100 := by positivity
    have h1 : C.u * (100 + 13) * (1 / expPoly 100) ≤ 1 / 1000 * (1 / expPoly 100) :=
      mul_le_mul_of_nonneg_right (by linarith) (le_of_lt hi)
    have h2 : 11 * Real.exp (-100) ≤ 1 / expPoly 100 := by
      rw [Real.exp_neg, le_div_iff₀ (by linarith)]
      have h3 := Real.exp_pos 100
      rw [mul_assoc, inv_mul_eq_div, ← mul_div_assoc, div_le_one h3]
      exact hp
    have h3 := Real.exp_pos (-100)
    linarith

/-- `exp(1)` of a `double` is near e -/
example : ∃ v, exp Fmt.double Fmt.double .double (.num 1) = some (Fmt.double.cvt v) ∧
    |v.val - Real.exp 1| ≤ (2 : ℝ) ^ (-46 : ℤ) * Real.exp 1 := by
  obtain ⟨v, h1, -, -, h2⟩ := C94_exp_partial Fmt.double Fmt.double .double ⟨le_refl _, le_refl _, le_refl _⟩ big_double
    ⟨rfl, by decide⟩ (by decide) 1 (by exact_mod_cast has_int Fmt.double 1 (by norm_num) (by simp [Fmt.double, ieee]))
    (by norm_num)
  exact ⟨v, h1, h2⟩

/-- `exp(-100)` of a `float` is wrong -/
example : ∃ v, exp Fmt.float Fmt.double .double (.num (-100)) = some (Fmt.float.cvt v) ∧ v.isFin ∧ 10 * Real.exp (-100) < v.val :=
  (C94_exp_refuted Fmt.float Fmt.double .double (by simp [Fmt.Sub, Fmt.float, Fmt.double, ieee]) big_double ⟨rfl, by decide⟩
    (by exact_mod_cast has_int Fmt.float 100 (by norm_num) (by simp [Fmt.float, ieee]))
    (by exact_mod_cast has_int Fmt.float (-100) (by norm_num) (by simp [Fmt.float, ieee]))).2

end Sprout
