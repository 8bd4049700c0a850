import Verif.Proofs.MathHyp
import Mathlib.Analysis.SpecialFunctions.Pow.Real
import Mathlib.Analysis.SpecialFunctions.Trigonometric.DerivHyp

/-! # C99: exp2, exp10, expm1 and the hyperbolic functions -/

namespace Sprout

open Classical FV Fmt MathTables MathConst MathExp MathTrig MathHyp

namespace MathHyp

variable {L F C : Fmt} {t : FloatTy}

theorem exp_diff {a y d : ℝ} (h : |y - a| ≤ d) (hd : d ≤ 1) : |Real.exp y - Real.exp a| ≤ 2 * d * Real.exp a := by
  have h1 := Real.abs_exp_sub_one_le (le_trans h hd)
  have e : Real.exp y - Real.exp a = (Real.exp (y - a) - 1) * Real.exp a := by
    rw [sub_mul, ← Real.exp_add]
    ring_nf
  rw [e, abs_mul, abs_of_pos (Real.exp_pos a)]
  exact mul_le_mul_of_nonneg_right (by linarith) (le_of_lt (Real.exp_pos a))

theorem const_nearR (h : TrigFmt L C t) {b : Const} (b1 : 1 / 2 ≤ b.real) : NearR C (const L C b) b.real b.real 4 := by
  have hu := u_pos (F := C)
  obtain ⟨z, z1, z2, z3⟩ := const_near h b
  rw [z1]
  exact NearR.of_err (Val.num z2.1) z2.2.1 (by rw [abs_of_pos (by linarith)]) (by nlinarith)

theorem expBy_num (hs : F.Sub C) {b : Const} {x : ℝ} (hx : F.Has (.num x)) :
    expBy L F C t b (.num x) = (exp C C t (C.mul (.num x) (const L C b))).map F.cvt := by
  have hx0 := hx.1
  unfold expBy
  simp only [MathClass.isnan, eq_num_num, eq_num_zero, eq_num_inf, hx0, decide_true, Bool.not_true, Bool.false_eq_true,
    if_false]
  rw [cvt_num (hs.rep hx.2.1) (hs.lt hx.2.2) hx0]

/-- the product with the logarithm of the base -/
theorem arg_near (hs : F.Sub C) (h : TrigFmt L C t) {b : Const} (b1 : 1 / 2 ≤ b.real) (b2 : b.real ≤ 3) {x : ℝ}
    (hx : F.Has (.num x)) (hb : |x| ≤ 1000) : ∃ r, Val (C.mul (.num x) (const L C b)) r ∧ Rep C.p C.emin r ∧
      |r - x * b.real| ≤ 6 * C.u * |x * b.real| + C.u / 1000 := by
  have hc := const_nearR (t := t) h b1
  have hxn : NearR C (.num x) x |x| 0 := NearR.num hx.1 (hs.rep hx.2.1)
  obtain ⟨r, r1, r2, r3⟩ := NearR.mul_abs h.big hxn hc (le_refl _) (by norm_num) (by norm_num) (by norm_num) (abs_nonneg _)
    (by linarith) (by
      have : |x| * b.real ≤ 1000 * 3 := mul_le_mul hb b2 (by linarith) (by norm_num)
      have h2 : (3000 : ℝ) ≤ 10 ^ 50 := by norm_num
      linarith)
  refine ⟨r, r1, r2, ?_⟩
  rw [abs_mul, abs_of_pos (show 0 < b.real by linarith)]
  norm_num at r3 ⊢
  linarith

theorem expBy_near (hs : F.Sub C) (h : TrigFmt L C t) (hp : C.p ≤ 64) {b : Const} (b1 : 1 / 2 ≤ b.real) (b2 : b.real ≤ 3) {x : ℝ}
    (hx : F.Has (.num x)) (hb : |x * b.real| ≤ 24) : ∃ v, expBy L F C t b (.num x) = some (F.cvt v) ∧ C.Has v ∧ v.isFin ∧
      |v.val - Real.exp (x * b.real)| ≤ 2 ^ 9 * C.u * Real.exp (x * b.real) := by
  have hu := u_pos (F := C)
  have hu8 := h.big.u_small
  have hx1 : |x| ≤ 1000 := by
    rw [abs_mul, abs_of_pos (show 0 < b.real by linarith)] at hb
    nlinarith [abs_nonneg x]
  obtain ⟨r, r1, r2, r3⟩ := arg_near (t := t) hs h b1 b2 hx hx1
  have hd : 6 * C.u * |x * b.real| + C.u / 1000 ≤ 145 * C.u := by nlinarith
  have hr : |r| ≤ 25 := by
    have := abs_sub_abs_le_abs_sub r (x * b.real)
    linarith
  obtain ⟨e, e1, e2⟩ := expC h.big h.tbl hp r1 r2 hr
  have hE := Real.exp_pos (x * b.real)
  obtain ⟨-, eb⟩ := exp_bounds hr
  obtain ⟨y, y1, y2, y3, y4⟩ := e2.lt_emax h.big (by norm_num) (by norm_num) (le_of_lt (Real.exp_pos r)) (by
    refine le_trans eb ?_; norm_num)
  refine ⟨e, ?_, val_has y1 y2 y4, y1.isFin, ?_⟩
  · rw [expBy_num hs hx, e1]
    rfl
  · rw [y1.val]
    have hdiff := exp_diff (le_trans r3 hd) (by linarith)
    have ht := abs_sub_le y (Real.exp r) (Real.exp (x * b.real))
    have h5 := abs_le.1 hdiff
    have h6 : Real.exp r ≤ 2 * Real.exp (x * b.real) := by nlinarith
    have h7 : 128 * C.u * Real.exp r ≤ 128 * C.u * Real.exp (x * b.real) + 128 * C.u * (2 * (145 * C.u) * Real.exp (x * b.real)) := by
      have : 128 * C.u * (Real.exp r - Real.exp (x * b.real)) ≤ 128 * C.u * (2 * (145 * C.u) * Real.exp (x * b.real)) :=
        mul_le_mul_of_nonneg_left h5.2 (by positivity)
      linarith
    have h8 : 128 * C.u * (2 * (145 * C.u) * Real.exp (x * b.real)) ≤ C.u * Real.exp (x * b.real) := by
      have : 128 * (2 * (145 * C.u)) ≤ 1 := by linarith
      have := mul_le_mul_of_nonneg_right this (show 0 ≤ C.u * Real.exp (x * b.real) by positivity)
      linarith
    have h9 : 0 ≤ C.u * Real.exp (x * b.real) := by positivity
    norm_num
    linarith

theorem ln10 : (2.07 : ℝ) ≤ Real.log 10 ∧ Real.log 10 ≤ 3 := by
  have h3 := Real.log_two_gt_d9
  have h4 := Real.log_two_lt_d9
  have h5 : Real.log 8 ≤ Real.log 10 := Real.log_le_log (by norm_num) (by norm_num)
  have h6 : Real.log 10 ≤ Real.log 16 := Real.log_le_log (by norm_num) (by norm_num)
  rw [show (8 : ℝ) = 2 ^ 3 by norm_num, Real.log_pow] at h5
  rw [show (16 : ℝ) = 2 ^ 4 by norm_num, Real.log_pow] at h6
  push_cast at h5 h6
  constructor
  · norm_num; linarith
  · linarith

/-! ### The polynomial of large arguments -/

theorem expPoly_large {y : ℝ} (h : 100 ≤ y) : 11 * expPoly y ≤ Real.exp y := by
  obtain ⟨q, hq⟩ : ∃ q, q = y / 100 := ⟨_, rfl⟩
  have hq1 : 1 ≤ q := by rw [hq, le_div_iff₀ (by norm_num)]; linarith
  have hy : y = q * 100 := by rw [hq]; field_simp
  have h2 := exp_sum_nat 100 140 140 (by norm_num)
  have h3 := exp_sum_nat 100 86 140 (by norm_num)
  push_cast at h2 h3
  have h4 : 11 * ∑ n ∈ Finset.range 86, 100 ^ n * ((140 : ℕ).factorial / n.factorial) ≤
      ∑ n ∈ Finset.range 140, 100 ^ n * ((140 : ℕ).factorial / n.factorial) := by decide +kernel
  have h5 : (0 : ℝ) < (140 : ℕ).factorial := by exact_mod_cast Nat.factorial_pos 140
  have h6 : 11 * ∑ n ∈ Finset.range 86, (100 : ℝ) ^ n / n.factorial ≤ ∑ n ∈ Finset.range 140, (100 : ℝ) ^ n / n.factorial := by
    rw [h2, h3, ← mul_div_assoc]
    refine div_le_div_of_nonneg_right ?_ (le_of_lt h5)
    exact_mod_cast h4
  have hsplit : ∀ z : ℝ, ∑ n ∈ Finset.range 140, z ^ n / n.factorial = ∑ n ∈ Finset.range 86, z ^ n / n.factorial +
      ∑ n ∈ Finset.Ico (86 : ℕ) 140, z ^ n / n.factorial := fun z => (Finset.sum_range_add_sum_Ico _ (by norm_num)).symm
  have h7 : 10 * ∑ n ∈ Finset.range 86, (100 : ℝ) ^ n / n.factorial ≤ ∑ n ∈ Finset.Ico (86 : ℕ) 140, (100 : ℝ) ^ n / n.factorial := by
    rw [hsplit 100] at h6
    linarith
  have h8 : ∑ n ∈ Finset.range 86, y ^ n / n.factorial ≤ q ^ 85 * ∑ n ∈ Finset.range 86, (100 : ℝ) ^ n / n.factorial := by
    rw [Finset.mul_sum]
    refine Finset.sum_le_sum fun n hn => ?_
    rw [Finset.mem_range] at hn
    rw [hy, mul_pow, mul_div_assoc]
    exact mul_le_mul_of_nonneg_right (pow_le_pow_right₀ hq1 (by omega)) (by positivity)
  have h9 : q ^ 85 * ∑ n ∈ Finset.Ico (86 : ℕ) 140, (100 : ℝ) ^ n / n.factorial ≤ ∑ n ∈ Finset.Ico (86 : ℕ) 140, y ^ n / n.factorial := by
    rw [Finset.mul_sum]
    refine Finset.sum_le_sum fun n hn => ?_
    rw [Finset.mem_Ico] at hn
    rw [hy, mul_pow, mul_div_assoc]
    exact mul_le_mul_of_nonneg_right (pow_le_pow_right₀ hq1 (by omega)) (by positivity)
  have h10 := Real.sum_le_exp_of_nonneg (show (0 : ℝ) ≤ y by linarith) 140
  rw [hsplit y] at h10
  have h11 := mul_le_mul_of_nonneg_left h7 (show 0 ≤ q ^ 85 by positivity)
  unfold expPoly
  linarith

/-- an argument of 100 or more -/
theorem exp_wrong (w : C.Big) (hf : HasFormat C t) {v : FV} {y : ℝ} (hv : Val v y) (hr : Rep C.p C.emin y) (h1 : 100 ≤ y)
    (h2 : y ≤ 2048) : ∃ e r, exp C C t v = some e ∧ Val e r ∧ C.Has e ∧ r < Real.exp y * (10 / 109) := by
  have hu := u_pos (F := C)
  have hu8 := w.u_small
  have hM := NearR.big_max30 w
  have h0 : y ≠ 0 := by linarith
  have hy : C.Has (.num y) := ⟨h0, hr, by
    rw [abs_of_pos (by linarith)]
    have e2 : (2 : ℝ) ^ C.emax = 2 * (2 : ℝ) ^ (C.emax - 1) := by
      rw [show C.emax = 1 + (C.emax - 1) by ring, zpow_add₀ (by norm_num), zpow_one]
      norm_num
    have : (2048 : ℝ) < 10 ^ 60 := by norm_num
    linarith⟩
  obtain ⟨e, e1, e2, e3, e4⟩ := exp_up (t := t) (⟨le_refl _, le_refl _, le_refl _⟩ : C.Sub C) w hf hy (by linarith) h2
  obtain ⟨s, z, z1, z2, z3⟩ := e2.cases e3
  have hc : C.cvt e = e := by rw [z1]; exact cvt_mkv z2 z3
  refine ⟨e, z, by rw [hv.eq_num h0, e1, hc], ⟨s, z1⟩, e2, ?_⟩
  have hval : e.val = z := by rw [z1, val_mkv]
  rw [hval, abs_of_pos (show 0 < y by linarith)] at e4
  have hp := expPoly_one_le (show 0 ≤ y by linarith)
  have h5 := expPoly_large h1
  have h6 : C.u * (y + 11) ≤ 1 / 1000 := by
    have : C.u * (y + 11) ≤ 1 / 9007199254740992 * 2059 := mul_le_mul hu8 (by linarith) (by linarith) (by norm_num)
    refine le_trans this (by norm_num)
  have h7 := mul_le_mul_of_nonneg_right h6 (show 0 ≤ expPoly y by linarith)
  have h8 := (abs_le.1 e4).2
  have h9 := Real.exp_pos y
  linarith

theorem expBy_wrong (hs : F.Sub C) (h : TrigFmt L C t) {b : Const} (b1 : 1 / 2 ≤ b.real) (b2 : b.real ≤ 3) {x : ℝ}
    (hx : F.Has (.num x)) (h1 : 100.5 ≤ x * b.real) (h2 : x ≤ 500) : ∃ v, expBy L F C t b (.num x) = some (F.cvt v) ∧ C.Has v ∧
      v.isFin ∧ v.val < Real.exp (x * b.real) / 10 := by
  have hu := u_pos (F := C)
  have hu8 := h.big.u_small
  have hx0 : 0 < x := by
    by_contra hc
    rw [not_lt] at hc
    norm_num at h1
    nlinarith
  obtain ⟨r, r1, r2, r3⟩ := arg_near (t := t) hs h b1 b2 hx (by rw [abs_of_pos hx0]; linarith)
  have hxb : x * b.real ≤ 1500 := by nlinarith
  rw [abs_of_pos (show 0 < x * b.real by positivity)] at r3
  have hd : 6 * C.u * (x * b.real) + C.u / 1000 ≤ 1 / 10000 := by
    have : 6 * C.u * (x * b.real) ≤ 6 * C.u * 1500 := mul_le_mul_of_nonneg_left hxb (by positivity)
    linarith
  have h3 := abs_le.1 (le_trans r3 hd)
  norm_num at h1
  obtain ⟨e, y, e1, e2, e3, e4⟩ := exp_wrong h.big h.tbl r1 r2 (by linarith) (by linarith)
  refine ⟨e, ?_, e3, e2.isFin, ?_⟩
  · rw [expBy_num hs hx, e1]
    rfl
  · rw [e2.val]
    have h4 := (abs_le.1 (exp_diff (le_trans r3 hd) (by norm_num))).2
    have h5 := Real.exp_pos (x * b.real)
    linarith

end MathHyp

/-- special values -/
theorem C99_special (L F C : Fmt) (t : FloatTy) (s : Bool) :
    (∀ b ∈ [Const.lnTwo, .lnTen], expBy L F C t b .nan = some .nan ∧ expBy L F C t b (.inf true) = some (.zero false) ∧
      expBy L F C t b (.inf false) = some (.inf false) ∧ expBy L F C t b (.zero s) = some (.num 1)) ∧
    (expm1 F C t .nan = some .nan ∧ expm1 F C t (.inf true) = some (.num (-1)) ∧ expm1 F C t (.inf false) = some (.inf false) ∧
      expm1 F C t (.zero s) = some (.zero s)) ∧
    (sinh F C t .nan = some .nan ∧ (∀ d, sinh F C t (.inf d) = some (.inf d)) ∧ sinh F C t (.zero s) = some (.zero s)) ∧
    (cosh F C t .nan = some .nan ∧ (∀ d, cosh F C t (.inf d) = some (.inf false)) ∧ cosh F C t (.zero s) = some (.num 1)) ∧
    (tanh F C t .nan = some .nan ∧ tanh F C t (.inf false) = some (.num 1) ∧ tanh F C t (.inf true) = some (.num (-1)) ∧
      tanh F C t (.zero s) = some (.zero s)) := by
  refine ⟨fun b _ => ⟨?_, ?_, ?_, ?_⟩, ⟨?_, ?_, ?_, ?_⟩, ⟨?_, fun d => ?_, ?_⟩, ⟨?_, fun d => ?_, ?_⟩, ?_, ?_, ?_, ?_⟩ <;>
    first
    | simp [expBy, expm1, sinh, cosh, tanh, MathClass.isnan]; done
    | cases s <;> simp [expBy, expm1, sinh, cosh, tanh, MathClass.isnan]; done
    | cases d <;> simp [expBy, expm1, sinh, cosh, tanh, MathClass.isnan]

/-- `exp2` has a relative error of at most 512 half epsilons of a type of computation of at most 64 bits, as long as
`|x ln 2| ≤ 24`. Missing: larger arguments, see `C99_exp2_refuted`. -/
theorem C99_exp2_partial (L F C : Fmt) (t : FloatTy) (hs : F.Sub C) (h : TrigFmt L C t) (hp : C.p ≤ 64) (x : ℝ)
    (hx : F.Has (.num x)) (hb : |x| ≤ 34) : ∃ v, exp2 L F C t (.num x) = some (F.cvt v) ∧ C.Has v ∧ v.isFin ∧
      |v.val - (2 : ℝ) ^ x| ≤ 2 ^ 9 * (2 : ℝ) ^ (-(C.p : ℤ)) * (2 : ℝ) ^ x := by
  have h3 := Real.log_two_gt_d9
  have h4 := Real.log_two_lt_d9
  have e : Const.lnTwo.real = Real.log 2 := rfl
  have e2 : (2 : ℝ) ^ x = Real.exp (x * Const.lnTwo.real) := by
    rw [Real.rpow_def_of_pos (by norm_num), e, mul_comm]
  rw [e2]
  refine expBy_near hs h hp (b := .lnTwo) (by rw [e]; linarith) (by rw [e]; linarith) hx ?_
  rw [abs_mul, e, abs_of_pos (show 0 < Real.log 2 by linarith)]
  nlinarith [abs_nonneg x]

/-- The same for `exp10`. Missing: larger arguments, see `C99_exp10_refuted`. -/
theorem C99_exp10_partial (L F C : Fmt) (t : FloatTy) (hs : F.Sub C) (h : TrigFmt L C t) (hp : C.p ≤ 64) (x : ℝ)
    (hx : F.Has (.num x)) (hb : |x| ≤ 8) : ∃ v, exp10 L F C t (.num x) = some (F.cvt v) ∧ C.Has v ∧ v.isFin ∧
      |v.val - (10 : ℝ) ^ x| ≤ 2 ^ 9 * (2 : ℝ) ^ (-(C.p : ℤ)) * (10 : ℝ) ^ x := by
  obtain ⟨h3, h4⟩ := MathHyp.ln10
  have e : Const.lnTen.real = Real.log 10 := rfl
  have e2 : (10 : ℝ) ^ x = Real.exp (x * Const.lnTen.real) := by
    rw [Real.rpow_def_of_pos (by norm_num), e, mul_comm]
  rw [e2]
  refine expBy_near hs h hp (b := .lnTen) (by rw [e]; linarith) (by rw [e]; linarith) hx ?_
  rw [abs_mul, e, abs_of_pos (show 0 < Real.log 10 by linarith)]
  nlinarith [abs_nonneg x]

/-- For all arguments from 145 to 500, `exp2` is less than a tenth of the power of two. -/
theorem C99_exp2_refuted (L F C : Fmt) (t : FloatTy) (hs : F.Sub C) (h : TrigFmt L C t) (x : ℝ)
    (hx : F.Has (.num x)) (h1 : 145 ≤ x) (h2 : x ≤ 500) : ∃ v, exp2 L F C t (.num x) = some (F.cvt v) ∧ C.Has v ∧ v.isFin ∧
      v.val < (2 : ℝ) ^ x / 10 := by
  have h3 := Real.log_two_gt_d9
  have h4 := Real.log_two_lt_d9
  have e : Const.lnTwo.real = Real.log 2 := rfl
  have e2 : (2 : ℝ) ^ x = Real.exp (x * Const.lnTwo.real) := by
    rw [Real.rpow_def_of_pos (by norm_num), e, mul_comm]
  rw [e2]
  refine expBy_wrong hs h (b := .lnTwo) (by rw [e]; linarith) (by rw [e]; linarith) hx ?_ h2
  rw [e]
  norm_num
  nlinarith

/-- For all arguments from 51 to 500, `exp10` is less than a tenth of the power of ten. -/
theorem C99_exp10_refuted (L F C : Fmt) (t : FloatTy) (hs : F.Sub C) (h : TrigFmt L C t) (x : ℝ)
    (hx : F.Has (.num x)) (h1 : 51 ≤ x) (h2 : x ≤ 500) : ∃ v, exp10 L F C t (.num x) = some (F.cvt v) ∧ C.Has v ∧ v.isFin ∧
      v.val < (10 : ℝ) ^ x / 10 := by
  obtain ⟨h3, h4⟩ := MathHyp.ln10
  have e : Const.lnTen.real = Real.log 10 := rfl
  have e2 : (10 : ℝ) ^ x = Real.exp (x * Const.lnTen.real) := by
    rw [Real.rpow_def_of_pos (by norm_num), e, mul_comm]
  rw [e2]
  refine expBy_wrong hs h (b := .lnTen) (by rw [e]; linarith) (by rw [e]; linarith) hx ?_ h2
  rw [e]
  norm_num
  nlinarith

namespace MathHyp

variable {F C : Fmt} {t : FloatTy}

/-- the common structure: a function of the exponential -/
theorem by_exp (w : C.Big) (hf : HasFormat C t) (hp : C.p ≤ 64) (f : FV → FV) {x : ℝ} (hx : C.Has (.num x)) (h : |x| ≤ 25)
    {a A k : ℝ} (hk0 : 0 ≤ k) (hk : k ≤ 1000) (hA : 0 ≤ A) (hA2 : A ≤ 10 ^ 50)
    (hfn : ∀ e, NearR C e (Real.exp x) (Real.exp x) 128 → NearR C (f e) a A k) :
    ∃ v, (exp C C t (.num x)).map (fun e => F.cvt (f e)) = some (F.cvt v) ∧ C.Has v ∧ v.isFin ∧ |v.val - a| ≤ k * C.u * A := by
  obtain ⟨e, e1, e2⟩ := expC w hf hp (Val.num hx.1) hx.2.1 h
  obtain ⟨r, r1, r2, r3, r4⟩ := (hfn e e2).lt_emax w hk0 hk hA hA2
  exact ⟨f e, by rw [e1]; rfl, val_has r1 r2 r4, r1.isFin, by rw [r1.val]; exact r3⟩

theorem cvt_arg (hs : F.Sub C) {x : ℝ} (hx : F.Has (.num x)) : C.cvt (.num x) = .num x ∧ C.Has (.num x) :=
  ⟨cvt_num (hs.rep hx.2.1) (hs.lt hx.2.2) hx.1, hx.1, hs.rep hx.2.1, hs.lt hx.2.2⟩

theorem expm1_num (hs : F.Sub C) {x : ℝ} (hx : F.Has (.num x)) :
    expm1 F C t (.num x) = (exp C C t (.num x)).map fun e => F.cvt (C.sub e (.num 1)) := by
  simp [expm1, MathClass.isnan, hx.1, (cvt_arg hs hx).1]

theorem sinh_num (hs : F.Sub C) {x : ℝ} (hx : F.Has (.num x)) :
    sinh F C t (.num x) = (exp C C t (.num x)).map fun e => F.cvt (sinhImpl1 C e) := by
  simp [sinh, MathClass.isnan, hx.1, (cvt_arg hs hx).1]

theorem cosh_num (hs : F.Sub C) {x : ℝ} (hx : F.Has (.num x)) :
    cosh F C t (.num x) = (exp C C t (.num x)).map fun e => F.cvt (coshImpl1 C e) := by
  simp [cosh, MathClass.isnan, hx.1, (cvt_arg hs hx).1]

theorem tanh_num (hs : F.Sub C) {x : ℝ} (hx : F.Has (.num x)) :
    tanh F C t (.num x) = (exp C C t (.num x)).map fun e => F.cvt (tanhImpl1 C e) := by
  simp [tanh, MathClass.isnan, hx.1, (cvt_arg hs hx).1]

theorem num_half (w : C.Big) : NearR C (.num (1 / 2)) (1 / 2) (1 / 2) 0 := by
  have := NearR.num (C := C) (show (1 / 2 : ℝ) ≠ 0 by norm_num) (rep_half w)
  rwa [abs_of_pos (by norm_num : (0 : ℝ) < 1 / 2)] at this

theorem num_one : NearR C (.num 1) 1 1 0 := by
  have := NearR.num (C := C) one_ne_zero C.rep_one
  rwa [abs_one] at this

theorem halves (w : C.Big) {x : ℝ} (h : |x| ≤ 25) {e : FV} (he : NearR C e (Real.exp x) (Real.exp x) 128) :
    NearR C (C.mul (.num (1 / 2)) e) (1 / 2 * Real.exp x) (1 / 2 * Real.exp x) 131 ∧
    NearR C (C.div (.num (1 / 2)) e) (1 / 2 / Real.exp x) (1 / 2 / Real.exp x) 131 := by
  obtain ⟨b1, b2⟩ := exp_bounds h
  have hE := Real.exp_pos x
  obtain ⟨b3, b4⟩ := exp_bounds (x := -x) (by rwa [abs_neg])
  have ei : 1 / 2 / Real.exp x = 1 / 2 * Real.exp (-x) := by rw [Real.exp_neg]; rfl
  have c1 : (1 : ℝ) / 10 ^ 50 ≤ 1 / 2 * (1 / 10 ^ 12) := by norm_num
  have c2 : (1 : ℝ) / 2 * 10 ^ 12 ≤ 10 ^ 50 := by norm_num
  constructor
  · exact (NearR.mul w (num_half w) he (le_refl _) (by norm_num) (by norm_num) (by norm_num) (by linarith) (by linarith)).mono
      (by positivity) (by norm_num)
  · exact (NearR.div w (num_half w) he (le_refl _) (by norm_num) (by norm_num) (by norm_num) hE (by rw [ei]; linarith)
      (by rw [ei]; linarith)).mono (by positivity) (by norm_num)

end MathHyp

/-- The error of `expm1` is at most 130 half epsilons of `e^x + 1`. Missing: a relative error for small arguments, see
`C99_tiny_refuted`, and arguments of absolute value greater than 25, see `C94_exp_refuted`. -/
theorem C99_expm1_partial (F C : Fmt) (t : FloatTy) (hs : F.Sub C) (w : C.Big) (hf : HasFormat C t) (hp : C.p ≤ 64) (x : ℝ)
    (hx : F.Has (.num x)) (h : |x| ≤ 25) : ∃ v, expm1 F C t (.num x) = some (F.cvt v) ∧ C.Has v ∧ v.isFin ∧
      |v.val - (Real.exp x - 1)| ≤ 130 * (2 : ℝ) ^ (-(C.p : ℤ)) * (Real.exp x + 1) := by
  have hE := Real.exp_pos x
  obtain ⟨b1, b2⟩ := exp_bounds h
  have c2 : (10 : ℝ) ^ 12 + 1 ≤ 10 ^ 50 := by norm_num
  rw [expm1_num hs hx]
  refine by_exp w hf hp (fun e => C.sub e (.num 1)) (cvt_arg hs hx).2 h (by norm_num) (by norm_num) (by linarith) (by linarith)
    fun e he => ?_
  have := NearR.sub w he (num_one.mono (by norm_num) (by norm_num)) (by norm_num) (by norm_num) (le_of_lt hE) (by norm_num)
    (by linarith)
  norm_num at this
  exact this

/-- The relative error of `cosh` is at most 133 half epsilons. Missing: arguments of absolute value greater than 25. -/
theorem C99_cosh_partial (F C : Fmt) (t : FloatTy) (hs : F.Sub C) (w : C.Big) (hf : HasFormat C t) (hp : C.p ≤ 64) (x : ℝ)
    (hx : F.Has (.num x)) (h : |x| ≤ 25) : ∃ v, cosh F C t (.num x) = some (F.cvt v) ∧ C.Has v ∧ v.isFin ∧
      |v.val - Real.cosh x| ≤ 133 * (2 : ℝ) ^ (-(C.p : ℤ)) * Real.cosh x := by
  have hE := Real.exp_pos x
  have hE' := Real.exp_pos (-x)
  obtain ⟨b1, b2⟩ := exp_bounds h
  obtain ⟨b3, b4⟩ := exp_bounds (x := -x) (by rwa [abs_neg])
  have c2 : (10 : ℝ) ^ 12 ≤ 10 ^ 50 := by norm_num
  have ec : Real.cosh x = 1 / 2 * Real.exp x + 1 / 2 / Real.exp x := by rw [Real.cosh_eq, Real.exp_neg]; ring
  have hc : Real.cosh x ≤ 10 ^ 12 := by rw [Real.cosh_eq]; linarith
  rw [cosh_num hs hx]
  refine by_exp w hf hp (coshImpl1 C) (cvt_arg hs hx).2 h (by norm_num) (by norm_num) (le_of_lt (Real.cosh_pos x)) (by linarith)
    fun e he => ?_
  obtain ⟨n1, n2⟩ := halves w h he
  have := NearR.add w n1 n2 (by norm_num) (by norm_num) (by positivity) (by positivity) (by rw [← ec]; linarith)
  rw [← ec] at this
  norm_num at this
  unfold coshImpl1
  norm_num
  exact this

/-- The error of `sinh` is at most 133 half epsilons of `cosh x`. Missing: a relative error for small arguments, see
`C99_tiny_refuted`, and arguments of absolute value greater than 25. -/
theorem C99_sinh_partial (F C : Fmt) (t : FloatTy) (hs : F.Sub C) (w : C.Big) (hf : HasFormat C t) (hp : C.p ≤ 64) (x : ℝ)
    (hx : F.Has (.num x)) (h : |x| ≤ 25) : ∃ v, sinh F C t (.num x) = some (F.cvt v) ∧ C.Has v ∧ v.isFin ∧
      |v.val - Real.sinh x| ≤ 133 * (2 : ℝ) ^ (-(C.p : ℤ)) * Real.cosh x := by
  have hE := Real.exp_pos x
  have hE' := Real.exp_pos (-x)
  obtain ⟨b1, b2⟩ := exp_bounds h
  obtain ⟨b3, b4⟩ := exp_bounds (x := -x) (by rwa [abs_neg])
  have c2 : (10 : ℝ) ^ 12 ≤ 10 ^ 50 := by norm_num
  have ec : Real.cosh x = 1 / 2 * Real.exp x + 1 / 2 / Real.exp x := by rw [Real.cosh_eq, Real.exp_neg]; ring
  have es : Real.sinh x = 1 / 2 * Real.exp x - 1 / 2 / Real.exp x := by rw [Real.sinh_eq, Real.exp_neg]; ring
  have hc : Real.cosh x ≤ 10 ^ 12 := by rw [Real.cosh_eq]; linarith
  rw [sinh_num hs hx]
  refine by_exp w hf hp (sinhImpl1 C) (cvt_arg hs hx).2 h (by norm_num) (by norm_num) (le_of_lt (Real.cosh_pos x)) (by linarith)
    fun e he => ?_
  obtain ⟨n1, n2⟩ := halves w h he
  have := NearR.sub w n1 n2 (by norm_num) (by norm_num) (by positivity) (by positivity) (by rw [← ec]; linarith)
  rw [← ec, ← es] at this
  norm_num at this
  unfold sinhImpl1
  norm_num
  exact this

/-- The absolute error of `tanh` is at most 269 half epsilons. Missing: a relative error for small arguments, see
`C99_tiny_refuted`, and large arguments, see `C99_tanh_refuted`. -/
theorem C99_tanh_partial (F C : Fmt) (t : FloatTy) (hs : F.Sub C) (w : C.Big) (hf : HasFormat C t) (hp : C.p ≤ 64) (x : ℝ)
    (hx : F.Has (.num x)) (h : |x| ≤ 25) : ∃ v, tanh F C t (.num x) = some (F.cvt v) ∧ C.Has v ∧ v.isFin ∧
      |v.val - Real.tanh x| ≤ 269 * (2 : ℝ) ^ (-(C.p : ℤ)) := by
  have hE := Real.exp_pos x
  obtain ⟨b1, b2⟩ := exp_bounds h
  obtain ⟨b3, b4⟩ := exp_bounds (x := -x) (by rwa [abs_neg])
  have c1 : (1 : ℝ) / 10 ^ 50 ≤ 1 / 10 ^ 12 := by norm_num
  have c2 : (10 : ℝ) ^ 12 + 10 ^ 12 ≤ 10 ^ 50 := by norm_num
  have c3 : (1 : ℝ) / 10 ^ 50 ≤ 1 := by norm_num
  have c4 : (1 : ℝ) ≤ 10 ^ 50 := by norm_num
  have ei : 1 / Real.exp x = Real.exp (-x) := by rw [Real.exp_neg, one_div]
  have et : Real.tanh x = (Real.exp x - 1 / Real.exp x) / (Real.exp x + 1 / Real.exp x) := by
    rw [Real.tanh_eq_sinh_div_cosh, Real.sinh_eq, Real.cosh_eq, ei, div_div_div_cancel_right₀ (by norm_num)]
  have hS : 0 < Real.exp x + 1 / Real.exp x := by positivity
  rw [tanh_num hs hx]
  obtain ⟨v, v1, v2, v3, v4⟩ := by_exp (F := F) w hf hp (tanhImpl1 C) (cvt_arg hs hx).2 h (a := Real.tanh x) (A := 1) (k := 269)
    (by norm_num) (by norm_num) (by norm_num) c4 fun e he => by
      have n2 : NearR C (C.div (.num 1) e) (1 / Real.exp x) (1 / Real.exp x) 131 :=
        (NearR.div w num_one he (le_refl _) (by norm_num) (by norm_num) (by norm_num) hE (by rw [ei]; linarith)
          (by rw [ei]; linarith)).mono (by positivity) (by norm_num)
      have n1 := he.mono (le_of_lt hE) (show (128 : ℝ) ≤ 131 by norm_num)
      have m1 := NearR.sub w n1 n2 (by norm_num) (by norm_num) (by positivity) (by positivity) (by rw [ei]; linarith)
      have m2 := NearR.add w n1 n2 (by norm_num) (by norm_num) (by positivity) (by positivity) (by rw [ei]; linarith)
      have := NearR.div w m1 m2 (by norm_num) (by norm_num) (by norm_num) (by norm_num) hS (by rw [div_self (ne_of_gt hS)]; exact c3)
        (by rw [div_self (ne_of_gt hS)]; exact c4)
      rw [← et, div_self (ne_of_gt hS)] at this
      exact this.mono (by norm_num) (by norm_num)
  refine ⟨v, v1, v2, v3, le_trans v4 (le_of_eq ?_)⟩
  unfold u
  ring

namespace MathHyp

variable {C : Fmt}

theorem sub_self_zero {x : ℝ} : C.sub (.num x) (.num x) = .zero false := by
  simp [sub, add, FV.neg, FV.val, ofReal, rnd_zero]

end MathHyp

/-- `expm1`, `sinh` and `tanh` of arguments of absolute value of at most `2^-(p+24)` are zero, so that the relative error is 1. -/
theorem C99_tiny_refuted (F C : Fmt) (t : FloatTy) (hs : F.Sub C) (w : C.Big) (hf : HasFormat C t) (x : ℝ)
    (hx : F.Has (.num x)) (h : |x| ≤ (2 : ℝ) ^ (-(C.p : ℤ)) / 2 ^ 24) : expm1 F C t (.num x) = some (.zero false) ∧
      sinh F C t (.num x) = some (.zero false) ∧ tanh F C t (.num x) = some (.zero false) := by
  have he := exp_tiny (t := t) w hf hx.1 (hs.rep hx.2.1) h
  have hem := w.emax
  have hbig : ∀ r : ℝ, |r| ≤ 2 → |r| < (2 : ℝ) ^ C.emax := fun r hr => by
    refine lt_of_le_of_lt hr ?_
    calc (2 : ℝ) = (2 : ℝ) ^ (1 : ℤ) := (zpow_one _).symm
      _ < _ := zpow_lt_zpow_right₀ (by norm_num) (by omega)
  have r2 : Rep C.p C.emin (2 : ℝ) := by
    have := Rep.two_zpow (p := C.p) (emin := C.emin) 1 (by have := w.emin; omega) (by have := w.p53; omega)
    rwa [zpow_one] at this
  have m1 : C.mul (.num (1 / 2)) (.num 1) = .num (1 / 2) := by
    have := mul_val (F := C) (Val.num (show (1 / 2 : ℝ) ≠ 0 by norm_num)) (Val.num one_ne_zero) (by
      rw [mul_one, rnd_of_rep (rep_half w)]; exact hbig _ (by rw [abs_of_pos] <;> norm_num))
    rw [mul_one, rnd_of_rep (rep_half w)] at this
    exact this.eq_num (by norm_num)
  have m2 : C.div (.num (1 / 2)) (.num 1) = .num (1 / 2) := by
    have := div_val (F := C) (Val.num (show (1 / 2 : ℝ) ≠ 0 by norm_num)) (Val.num one_ne_zero) one_ne_zero (by
      rw [div_one, rnd_of_rep (rep_half w)]; exact hbig _ (by rw [abs_of_pos] <;> norm_num))
    rw [div_one, rnd_of_rep (rep_half w)] at this
    exact this.eq_num (by norm_num)
  have m3 : C.div (.num 1) (.num 1) = .num 1 := by
    have := div_val (F := C) (Val.num one_ne_zero) (Val.num one_ne_zero) one_ne_zero (by
      rw [div_one, rnd_of_rep C.rep_one]; exact hbig _ (by rw [abs_one]; norm_num))
    rw [div_one, rnd_of_rep C.rep_one] at this
    exact this.eq_num (by norm_num)
  have m4 : C.add (.num 1) (.num 1) = .num 2 := by
    have := add_val (F := C) (Val.num one_ne_zero) (Val.num one_ne_zero) (by
      rw [one_add_one_eq_two, rnd_of_rep r2]; exact hbig _ (by rw [abs_of_pos] <;> norm_num))
    rw [one_add_one_eq_two, rnd_of_rep r2] at this
    exact this.eq_num (by norm_num)
  have m5 : C.div (.zero false) (.num 2) = .zero false := by
    have h2 : ¬ (2 : ℝ) < 0 := by norm_num
    simp [div, ofReal, FV.sgn, FV.val, h2, rnd_zero]
  refine ⟨?_, ?_, ?_⟩
  · rw [expm1_num hs hx, he]
    change some (F.cvt (C.sub (.num 1) (.num 1))) = _
    rw [sub_self_zero]
    rfl
  · rw [sinh_num hs hx, he]
    change some (F.cvt (C.sub (C.mul (.num (1 / 2)) (.num 1)) (C.div (.num (1 / 2)) (.num 1)))) = _
    rw [m1, m2, sub_self_zero]
    rfl
  · rw [tanh_num hs hx, he]
    change some (F.cvt (C.div (C.sub (.num 1) (C.div (.num 1) (.num 1))) (C.add (.num 1) (C.div (.num 1) (.num 1))))) = _
    rw [m3, sub_self_zero, m4, m5]
    rfl

/-- `tanh` of any finite value of which the square overflows is NaN instead of 1 or -1. -/
theorem C99_tanh_refuted (F C : Fmt) (t : FloatTy) (hs : F.Sub C) (w : C.Big) (hf : HasFormat C t) (x : ℝ)
    (hx : F.Has (.num x)) (h1 : 1 < x) (h2 : (2 : ℝ) ^ C.emax ≤ x * x) : tanh F C t (.num x) = some .nan ∧
      tanh F C t (.num (-x)) = some .nan := by
  have hx' : F.Has (.num (-x)) := ⟨neg_ne_zero.2 hx.1, hx.2.1.neg, by rw [abs_neg]; exact hx.2.2⟩
  have h3 : (2 : ℝ) ^ C.emax ≤ C.rnd (x * x) := le_rnd h2 (Rep.two_zpow _ (by have := w.emin; have := w.emax; omega) (by have := w.p53; omega))
  obtain ⟨e1, e2⟩ := exp_huge (t := t) w hf (cvt_arg hs hx).2 h1 h3
  have h10 : ¬ (1 : ℝ) < 0 := by norm_num
  constructor
  · rw [tanh_num hs hx, e1]
    simp [tanhImpl1, tanhImpl2, div, add, sub, FV.sgn, FV.neg, h10]
    rfl
  · rw [tanh_num hs hx', e2]
    simp [tanhImpl1, tanhImpl2, div, add, sub, FV.sgn, FV.neg, h10]
    rfl

example : ∃ v, cosh float double .double (.num 20) = some (float.cvt v) ∧ double.Has v ∧ v.isFin ∧
    |v.val - Real.cosh 20| ≤ 133 * (2 : ℝ) ^ (-((double).p : ℤ)) * Real.cosh 20 :=
  C99_cosh_partial float double .double (by simp [Fmt.Sub, float, double, ieee]) big_double trigFmt_double.tbl (by decide) 20
    (by exact_mod_cast has_int float 20 (by norm_num) (by decide)) (by rw [abs_of_pos] <;> norm_num)

/-- `exp2(150)` of `double` -/
example : ∃ v, exp2 extended double double .double (.num 150) = some (double.cvt v) ∧ double.Has v ∧ v.isFin ∧
    v.val < (2 : ℝ) ^ (150 : ℝ) / 10 :=
  C99_exp2_refuted extended double double .double ⟨le_refl _, le_refl _, le_refl _⟩ trigFmt_double 150
    (by exact_mod_cast has_int double 150 (by norm_num) (by decide)) (by norm_num) (by norm_num)

/-- `tanh(2^600)` of `double` -/
example : tanh double double .double (.num ((2 : ℝ) ^ (600 : ℤ))) = some .nan := by
  refine (C99_tanh_refuted double double .double ⟨le_refl _, le_refl _, le_refl _⟩ big_double trigFmt_double.tbl _
    ⟨by positivity, Rep.two_zpow _ (by decide) (by decide), ?_⟩ ?_ ?_).1
  · rw [abs_of_pos (by positivity)]
    exact zpow_lt_zpow_right₀ (by norm_num) (by decide)
  · calc (1 : ℝ) = (2 : ℝ) ^ (0 : ℤ) := (zpow_zero _).symm
      _ < _ := zpow_lt_zpow_right₀ (by norm_num) (by norm_num)
  · rw [← zpow_add₀ (by norm_num)]
    exact zpow_le_zpow_right₀ (by norm_num) (by decide)

end Sprout
