import Verif.Proofs.MathLogs
import Verif.Proofs.NearRel

/-! # C98: logarithms to other bases, and the functions which rely on them -/

namespace Sprout

open Classical FV Fmt MathTables MathConst MathLog MathTrig MathExp MathLogs MathScale MathMod

namespace MathLogs

variable {L F C : Fmt} {t : FloatTy}

theorem logBy_num (hs : F.Sub C) {b : Const} {x : ℝ} (hx : F.Has (.num x)) (h0 : 0 < x) (h1 : x ≠ 1) :
    logBy L F C t b (.num x) = (log L C C t (.num x)).map fun l => F.cvt (C.div l (const L C b)) := by
  have hx0 := hx.1
  unfold logBy
  simp only [MathClass.isnan, eq_num_num, eq_num_zero, eq_num_inf, lt_num_zero, hx0, decide_true, Bool.not_true, Bool.false_eq_true,
    if_false]
  rw [if_neg (by linarith), if_neg h1, cvt_num (hs.rep hx.2.1) (hs.lt hx.2.2) hx0]

/-- the quotient by the logarithm of a base -/
theorem div_const (h : TrigFmt L C t) {b : Const} (b1 : 1 / 2 ≤ b.real) (b2 : b.real ≤ 3) {x : ℝ} (hx : C.Has (.num x))
    (h0 : (2 : ℝ) ^ (1 - C.emax) ≤ x) (h1 : x ≠ 1) : ∃ l v r e, log L C C t (.num x) = some l ∧ C.div l (const L C b) = v ∧ Val v r ∧
      Rep C.p C.emin r ∧ |r| < (2 : ℝ) ^ C.emax ∧ 0 ≤ e ∧ e ≤ 2 * C.u ∧ (1 ≤ x → e = 0) ∧
      |r - Real.log x / b.real| ≤ (72 * C.u * |Real.log x| + 2 * e) / b.real := by
  have hu := u_pos (F := C)
  have hu8 := h.big.u_small
  have hx0 : 0 < x := lt_of_lt_of_le (by positivity) h0
  obtain ⟨v, l, e, v1, v2, v3, v4, v5, v6, v7, v8⟩ := logC h hx h0
  obtain ⟨z, z1, z2, z3⟩ := const_near h b
  have hsz := log_size h hx h0
  obtain ⟨r, r1, r2, r3, r4⟩ := div_near h.big v2 (Val.num z2.1) (d := 4) (by norm_num) (by norm_num) v5 v6 (by linarith) v8
    (by nlinarith : |z - b.real| ≤ 4 * C.u * b.real) (far_one h.big hx.2.1 hx0 h1) (by norm_num at hsz ⊢; linarith)
    (by norm_num; linarith)
  refine ⟨v, _, r, e, v1, rfl, by rw [z1]; exact r1, r2, r4, v5, v6, v7, ?_⟩
  norm_num at r3 ⊢
  exact r3

theorem logBy_near (hs : F.Sub C) (h : TrigFmt L C t) {b : Const} (b1 : 1 / 2 ≤ b.real) (b2 : b.real ≤ 3) {x : ℝ}
    (hx : F.Has (.num x)) (h0 : (2 : ℝ) ^ (1 - C.emax) ≤ x) (h1 : x ≠ 1) : ∃ v, logBy L F C t b (.num x) = some (F.cvt v) ∧
      C.Has v ∧ v.isFin ∧ (1 < x → |v.val - Real.log x / b.real| ≤ 72 * C.u * (Real.log x / b.real)) ∧
      (x < 1 → |v.val - Real.log x / b.real| ≤ 72 * C.u * |Real.log x / b.real| + 8 * C.u) := by
  have hu := u_pos (F := C)
  have hx0 : 0 < x := lt_of_lt_of_le (by positivity) h0
  have hxC : C.Has (.num x) := ⟨hx.1, hs.rep hx.2.1, hs.lt hx.2.2⟩
  obtain ⟨l, v, r, e, a1, a2, a3, a4, a5, a6, a7, a8, a9⟩ := div_const (t := t) h b1 b2 hxC h0 h1
  refine ⟨v, ?_, val_has a3 a4 a5, a3.isFin, fun hlt => ?_, fun hlt => ?_⟩
  · rw [logBy_num hs hx hx0 h1, a1, ← a2]
    rfl
  · rw [a3.val]
    rw [a8 (le_of_lt hlt), abs_of_pos (Real.log_pos hlt)] at a9
    refine le_trans a9 (le_of_eq ?_)
    ring
  · rw [a3.val]
    refine le_trans a9 ?_
    rw [abs_div, abs_of_pos (show 0 < b.real by linarith), add_div, mul_div_assoc]
    have : 2 * e / b.real ≤ 8 * C.u := by
      rw [div_le_iff₀ (by linarith)]
      nlinarith
    linarith

end MathLogs

/-- special values -/
theorem C98_special (L F C : Fmt) (t : FloatTy) (s : Bool) (x : ℝ) (hx : x < 0) :
    (∀ b ∈ [Const.lnTwo, .lnTen], logBy L F C t b .nan = some .nan ∧ logBy L F C t b (.zero s) = some (.inf true) ∧
      logBy L F C t b (.inf false) = some (.inf false) ∧ logBy L F C t b (.inf true) = some .nan ∧
      logBy L F C t b (.num x) = some .nan ∧ logBy L F C t b (.num 1) = some (.zero false)) ∧
    log1p L F C t .nan = some .nan ∧ log1p L F C t (.num (-1)) = some (.inf true) ∧
    log1p L F C t (.inf false) = some (.inf false) ∧ log1p L F C t (.inf true) = some .nan ∧
    (x < -1 → log1p L F C t (.num x) = some .nan) ∧ log1p L F C t (.zero s) = some (.zero s) := by
  refine ⟨fun b _ => ⟨?_, ?_, ?_, ?_, ?_, ?_⟩, ?_, ?_, ?_, ?_, fun h => ?_, ?_⟩
  · simp [logBy, MathClass.isnan]
  · cases s <;> simp [logBy, MathClass.isnan]
  · simp [logBy, MathClass.isnan]
  · simp [logBy, MathClass.isnan]
  · simp [logBy, MathClass.isnan, ne_of_lt hx, hx]
  · simp [logBy, MathClass.isnan]
  · simp [log1p, MathClass.isnan]
  · simp [log1p, MathClass.isnan]
  · simp [log1p, MathClass.isnan]
  · simp [log1p, MathClass.isnan]
  · simp [log1p, MathClass.isnan, ne_of_lt h, h]
  · cases s <;> simp [log1p, MathClass.isnan]

/-- The logarithm to the base 2 of an argument greater than one has a relative error of at most 72 half epsilons of the type of
computation. For an argument less than one there is an absolute error of 8 half epsilons in addition. Missing: arguments of which
the reciprocal overflows; a relative error for arguments just below one (see `C96_log_refuted`). -/
theorem C98_log2_partial (L F C : Fmt) (t : FloatTy) (hs : F.Sub C) (h : TrigFmt L C t) (x : ℝ) (hx : F.Has (.num x))
    (h0 : (2 : ℝ) ^ (1 - C.emax) ≤ x) (h1 : x ≠ 1) : ∃ v, log2 L F C t (.num x) = some (F.cvt v) ∧ C.Has v ∧ v.isFin ∧
      (1 < x → |v.val - Real.logb 2 x| ≤ 72 * (2 : ℝ) ^ (-(C.p : ℤ)) * Real.logb 2 x) ∧
      (x < 1 → |v.val - Real.logb 2 x| ≤ 72 * (2 : ℝ) ^ (-(C.p : ℤ)) * |Real.logb 2 x| + 8 * (2 : ℝ) ^ (-(C.p : ℤ))) := by
  have h3 := Real.log_two_gt_d9
  have h4 := Real.log_two_lt_d9
  have e : Const.lnTwo.real = Real.log 2 := rfl
  exact logBy_near hs h (b := .lnTwo) (by rw [e]; linarith) (by rw [e]; linarith) hx h0 h1

theorem MathLogs.ln_ten : (2 : ℝ) ≤ Real.log 10 ∧ Real.log 10 ≤ 3 := by
  have h3 := Real.log_two_gt_d9
  have h4 := Real.log_two_lt_d9
  have h5 : Real.log 8 ≤ Real.log 10 := Real.log_le_log (by norm_num) (by norm_num)
  have h6 : Real.log 10 ≤ Real.log 16 := Real.log_le_log (by norm_num) (by norm_num)
  rw [show (8 : ℝ) = 2 ^ 3 by norm_num, Real.log_pow] at h5
  rw [show (16 : ℝ) = 2 ^ 4 by norm_num, Real.log_pow] at h6
  push_cast at h5 h6
  constructor <;> linarith

/-- the same for the base 10 -/
theorem C98_log10_partial (L F C : Fmt) (t : FloatTy) (hs : F.Sub C) (h : TrigFmt L C t) (x : ℝ) (hx : F.Has (.num x))
    (h0 : (2 : ℝ) ^ (1 - C.emax) ≤ x) (h1 : x ≠ 1) : ∃ v, log10 L F C t (.num x) = some (F.cvt v) ∧ C.Has v ∧ v.isFin ∧
      (1 < x → |v.val - Real.logb 10 x| ≤ 72 * (2 : ℝ) ^ (-(C.p : ℤ)) * Real.logb 10 x) ∧
      (x < 1 → |v.val - Real.logb 10 x| ≤ 72 * (2 : ℝ) ^ (-(C.p : ℤ)) * |Real.logb 10 x| + 8 * (2 : ℝ) ^ (-(C.p : ℤ))) := by
  obtain ⟨h3, h4⟩ := ln_ten
  have e : Const.lnTen.real = Real.log 10 := rfl
  exact logBy_near hs h (b := .lnTen) (by rw [e]; linarith) (by rw [e]; linarith) hx h0 h1

/-- The logarithm of a number greater than one to a base greater than one has a relative error of at most 133 half epsilons of the
type of computation. Missing: bases less than one, and small arguments, for which see `log2`. -/
theorem C98_log_a_partial (L F C : Fmt) (t : FloatTy) (hs : F.Sub C) (h : TrigFmt L C t) (x y : ℝ) (hx : F.Has (.num x))
    (hy : F.Has (.num y)) (h1 : 1 < x) (h2 : 1 < y) : ∃ v, logA L F C t (.num x) (.num y) = some (F.cvt v) ∧ C.Has v ∧ v.isFin ∧
      |v.val - Real.logb x y| ≤ 133 * (2 : ℝ) ^ (-(C.p : ℤ)) * Real.logb x y := by
  have hu := u_pos (F := C)
  have hu8 := h.big.u_small
  have huE : (2 : ℝ) ^ (-(C.p : ℤ)) = C.u := rfl
  have hone : (2 : ℝ) ^ (1 - C.emax) ≤ 1 := by
    have := h.big.emax
    calc (2 : ℝ) ^ (1 - C.emax) ≤ (2 : ℝ) ^ (0 : ℤ) := zpow_le_zpow_right₀ (by norm_num) (by omega)
      _ = 1 := zpow_zero _
  have hxC : C.Has (.num x) := ⟨hx.1, hs.rep hx.2.1, hs.lt hx.2.2⟩
  have hyC : C.Has (.num y) := ⟨hy.1, hs.rep hy.2.1, hs.lt hy.2.2⟩
  have hlx := Real.log_pos h1
  have hly := Real.log_pos h2
  have hpos : 0 < Real.logb x y := div_pos hly hlx
  have hfin : ∀ v r, Val v r → Rep C.p C.emin r → |r| < (2 : ℝ) ^ C.emax → logAImpl L C t (.num x) (.num y) = some v →
      |r - Real.logb x y| ≤ 133 * C.u * Real.logb x y → ∃ v, logA L F C t (.num x) (.num y) = some (F.cvt v) ∧ C.Has v ∧ v.isFin ∧
      |v.val - Real.logb x y| ≤ 133 * (2 : ℝ) ^ (-(C.p : ℤ)) * Real.logb x y := by
    intro v r a b c d e
    refine ⟨v, ?_, val_has a b c, a.isFin, by rw [a.val]; exact e⟩
    unfold logA
    rw [cvt_num hxC.2.1 hxC.2.2 hx.1, cvt_num hyC.2.1 hyC.2.2 hy.1, d]
    rfl
  have hby : ∀ b : Const, 1 / 2 ≤ b.real → b.real ≤ 3 → b.real = Real.log x →
      logAImpl L C t (.num x) (.num y) = (log L C C t (.num y)).map (fun l => C.div l (const L C b)) →
      ∃ v, logA L F C t (.num x) (.num y) = some (F.cvt v) ∧ C.Has v ∧ v.isFin ∧
      |v.val - Real.logb x y| ≤ 133 * (2 : ℝ) ^ (-(C.p : ℤ)) * Real.logb x y := by
    intro b b1 b2 b3 b4
    obtain ⟨l, v, r, e, a1, a2, a3, a4, a5, a6, a7, a8, a9⟩ := div_const (t := t) h b1 b2 hyC (by linarith) (ne_of_gt h2)
    refine hfin v r a3 a4 a5 (by rw [b4, a1, ← a2]; rfl) ?_
    rw [a8 (le_of_lt h2), b3, mul_zero, add_zero, abs_of_pos hly, mul_div_assoc] at a9
    have : C.u * Real.logb x y ≥ 0 := by positivity
    have e : Real.log y / Real.log x = Real.logb x y := rfl
    rw [e] at a9
    linarith
  by_cases hx2 : x = 2
  · have h3 := Real.log_two_gt_d9
    have h4 := Real.log_two_lt_d9
    have e : Const.lnTwo.real = Real.log 2 := rfl
    refine hby .lnTwo (by rw [e]; linarith) (by rw [e]; linarith) (by rw [hx2]; rfl) ?_
    unfold logAImpl
    rw [if_pos (by simp only [eq_num_num]; exact hx2)]
  by_cases hx10 : x = 10
  · obtain ⟨h3, h4⟩ := ln_ten
    have e : Const.lnTen.real = Real.log 10 := rfl
    refine hby .lnTen (by rw [e]; linarith) (by rw [e]; linarith) (by rw [hx10]; rfl) ?_
    unfold logAImpl
    rw [if_neg (by simp only [eq_num_num]; exact hx2), if_pos (by simp only [eq_num_num]; exact hx10)]
  obtain ⟨v, l, e, v1, v2, v3, v4, v5, v6, v7, v8⟩ := logC h hyC (by linarith)
  obtain ⟨v', l', e', w1, w2, w3, w4, w5, w6, w7, w8⟩ := logC h hxC (by linarith)
  rw [w7 (le_of_lt h1), add_zero, abs_of_pos hlx] at w8
  have hfx := far_one h.big hxC.2.1 (by linarith) (ne_of_gt h1)
  rw [abs_of_pos hlx] at hfx
  have s1 := log_size h hxC (by linarith)
  have s2 := log_size h hyC (by linarith)
  rw [abs_of_pos hlx] at s1
  obtain ⟨r, r1, r2, r3, r4⟩ := div_near h.big v2 w2 (d := 64) (by norm_num) (by norm_num) v5 v6 hfx v8 w8
    (far_one h.big hyC.2.1 (by linarith) (ne_of_gt h2)) (by norm_num at s2 ⊢; linarith) (by norm_num at s1 ⊢; linarith)
  refine hfin _ r r1 r2 r4 ?_ ?_
  · unfold logAImpl
    rw [if_neg (by simp only [eq_num_num]; exact hx2), if_neg (by simp only [eq_num_num]; exact hx10), v1, w1]
    rfl
  · rw [v7 (le_of_lt h2), mul_zero, add_zero, abs_of_pos hly, mul_div_assoc] at r3
    have e : Real.log y / Real.log x = Real.logb x y := rfl
    rw [e] at r3
    have : C.u * Real.logb x y ≥ 0 := by positivity
    linarith

namespace MathLogs

variable {L F C : Fmt} {t : FloatTy}

/-- `log_a(T(2), x)` -/
theorem own_near (h : TrigFmt L C t) {x : ℝ} (hx : C.Has (.num x)) (h0 : (2 : ℝ) ^ (1 - C.emax) ≤ x) (h1 : x ≠ 1) :
    ∃ v r e, logA L C C t (.num 2) (.num x) = some v ∧ ownLog2 L C t (.num x) = v ∧ Val v r ∧ Rep C.p C.emin r ∧
      |r| < (2 : ℝ) ^ C.emax ∧ 0 ≤ e ∧ e ≤ 2 * C.u ∧ (1 ≤ x → e = 0) ∧
      |r - Real.logb 2 x| ≤ 72 * C.u * |Real.logb 2 x| + 4 * e := by
  have h3 := Real.log_two_gt_d9
  have h4 := Real.log_two_lt_d9
  have e : Const.lnTwo.real = Real.log 2 := rfl
  have hu := u_pos (F := C)
  obtain ⟨l, v, r, e, a1, a2, a3, a4, a5, a6, a7, a8, a9⟩ := div_const (t := t) (b := .lnTwo) h (by rw [e]; linarith)
    (by rw [e]; linarith) hx h0 h1
  have h2C : C.Has (.num 2) := by
    have := has_int C 2 (by norm_num) (by
      have : 2 ^ 2 ≤ 2 ^ C.p := Nat.pow_le_pow_right (by norm_num) (by have := h.big.p53; omega)
      have : (2 : ℤ) ^ 2 ≤ 2 ^ C.p := by exact_mod_cast this
      rw [abs_of_pos (by norm_num)]
      omega)
    exact_mod_cast this
  have hl : logA L C C t (.num 2) (.num x) = some v := by
    unfold logA logAImpl
    rw [cvt_num hx.2.1 hx.2.2 hx.1, cvt_num h2C.2.1 h2C.2.2 h2C.1, if_pos (by simp), a1]
    change some (C.cvt (C.div l (const L C .lnTwo))) = _
    rw [a2, cvt_of_val a3 a4 a5]
  refine ⟨v, r, e, hl, ?_, a3, a4, a5, a6, a7, a8, ?_⟩
  · unfold ownLog2
    rw [hl]
    rfl
  · have ee : Const.lnTwo.real = Real.log 2 := rfl
    rw [ee] at a9
    have e5 : |Real.logb 2 x| = |Real.log x| / Real.log 2 := by
      unfold Real.logb
      rw [abs_div, abs_of_pos (show 0 < Real.log 2 by linarith)]
    rw [e5]
    refine le_trans a9 ?_
    rw [add_div, mul_div_assoc]
    have : 2 * e / Real.log 2 ≤ 4 * e := by
      rw [div_le_iff₀ (by linarith)]
      nlinarith
    linarith

end MathLogs

namespace MathLogs

variable {L F C : Fmt} {t : FloatTy}

theorem log1p_num (hs : F.Sub C) {x : ℝ} (hx : F.Has (.num x)) (h1 : -1 < x) :
    log1p L F C t (.num x) = (log L C C t (C.add (.num 1) (.num x))).map F.cvt := by
  have hx0 := hx.1
  unfold log1p
  simp only [MathClass.isnan, eq_num_num, eq_num_zero, eq_num_inf, hx0, decide_true, Bool.not_true, Bool.false_eq_true,
    if_false]
  rw [if_neg (ne_of_gt h1), if_neg (by simp [le_of_lt h1]), cvt_num (hs.rep hx.2.1) (hs.lt hx.2.2) hx0]

end MathLogs

/-- `log1p` has an absolute error of 5 half epsilons in addition to a relative error of 64. Missing: a relative error near 0, see
`C98_log1p_refuted`; arguments of a quarter of the supremum or more. -/
theorem C98_log1p_partial (L F C : Fmt) (t : FloatTy) (hs : F.Sub C) (h : TrigFmt L C t) (x : ℝ) (hx : F.Has (.num x))
    (h1 : -1 < x) (h2 : x ≤ (2 : ℝ) ^ (C.emax - 2)) : ∃ v, log1p L F C t (.num x) = some (F.cvt v) ∧ C.Has v ∧ v.isFin ∧
      |v.val - Real.log (1 + x)| ≤ (64 * |Real.log (1 + x)| + 5) * (2 : ℝ) ^ (-(C.p : ℤ)) := by
  have hu := u_pos (F := C)
  have hu8 := h.big.u_small
  have hp := h.big.p53
  have hp2 := h.big.p113
  have hem := h.big.emax
  have hemin := h.emin
  have huE : (2 : ℝ) ^ (-(C.p : ℤ)) = C.u := rfl
  have hM := big_max h.big
  have hxC : C.Has (.num x) := ⟨hx.1, hs.rep hx.2.1, hs.lt hx.2.2⟩
  have hlow : C.u ≤ 1 + x := by
    rcases le_or_gt (-(1 / 2)) x with hc | hc
    · linarith
    · obtain ⟨m, hm⟩ := one_grid h.big hxC.2.1.neg (by linarith)
      have hm0 : (m : ℝ) < 0 := by
        by_contra hn
        have := mul_nonneg (not_lt.1 hn) (le_of_lt hu)
        linarith
      have : m ≤ -1 := by
        have : m < 0 := by exact_mod_cast hm0
        omega
      have : (m : ℝ) ≤ -1 := by exact_mod_cast this
      nlinarith
  have hrel := rnd_rel (F := C) (x := 1 + x) (by
    rw [abs_of_pos (by linarith)]
    refine le_trans ?_ hlow
    exact zpow_le_zpow_right₀ (by norm_num) (by omega))
  rw [abs_of_pos (show 0 < 1 + x by linarith)] at hrel
  have e2 : (2 : ℝ) ^ C.emax = 4 * (2 : ℝ) ^ (C.emax - 2) := by
    rw [show C.emax = 2 + (C.emax - 2) by ring, zpow_add₀ (by norm_num)]
    norm_num
  have e3 : (2 : ℝ) ^ (C.emax - 1) = 2 * (2 : ℝ) ^ (C.emax - 2) := by
    rw [show C.emax - 1 = 1 + (C.emax - 2) by ring, zpow_add₀ (by norm_num), zpow_one]
  have hr := abs_le.1 hrel
  obtain ⟨w, hw⟩ : ∃ w, w = C.rnd (1 + x) := ⟨_, rfl⟩
  have hwr : Rep C.p C.emin w := by rw [hw]; exact C.rnd_rep _
  rw [← hw] at hrel hr
  have hq : C.u * (1 + x) ≤ 1 / 9007199254740992 * (1 + x) := mul_le_mul_of_nonneg_right hu8 (by linarith)
  have hw0 : 0 < w := by linarith
  have hwlt : |w| < (2 : ℝ) ^ C.emax := by rw [abs_of_pos hw0]; linarith
  have hwC : C.Has (.num w) := ⟨ne_of_gt hw0, hwr, hwlt⟩
  have hadd : C.add (.num 1) (.num x) = .num w := by
    have := add_val (F := C) (Val.num one_ne_zero) (Val.num hx.1) (by rw [← hw]; exact hwlt)
    rw [← hw] at this
    exact this.eq_num (ne_of_gt hw0)
  have hge : (2 : ℝ) ^ (1 - C.emax) ≤ w := by
    have : (2 : ℝ) ^ (1 - C.emax) ≤ C.u / 2 := by
      calc (2 : ℝ) ^ (1 - C.emax) ≤ (2 : ℝ) ^ (-(C.p : ℤ) - 1) := zpow_le_zpow_right₀ (by norm_num) (by omega)
        _ = C.u / 2 := by unfold u; rw [zpow_sub₀ (by norm_num), zpow_one]
    linarith
  obtain ⟨v, l, e, v1, v2, v3, v4, v5, v6, v7, v8⟩ := logC h hwC hge
  have hlog : |Real.log w - Real.log (1 + x)| ≤ 9 / 8 * C.u := by
    have hq0 : 0 < w / (1 + x) := div_pos hw0 (by linarith)
    rw [← Real.log_div (ne_of_gt hw0) (by linarith)]
    have a1 := Real.log_le_sub_one_of_pos hq0
    have a2 := Real.one_sub_inv_le_log_of_pos hq0
    have b1 : w / (1 + x) ≤ 1 + C.u := by
      rw [div_le_iff₀ (by linarith)]; linarith
    have b2 : (w / (1 + x))⁻¹ ≤ 1 + 9 / 8 * C.u := by
      rw [inv_div, div_le_iff₀ hw0]
      nlinarith
    rw [abs_le]
    constructor <;> linarith
  refine ⟨v, ?_, val_has v2 v3 v4, v2.isFin, ?_⟩
  · rw [log1p_num hs hx h1, hadd, v1]
    rfl
  · rw [v2.val, huE]
    have t1 := abs_sub_le l (Real.log w) (Real.log (1 + x))
    have t2 : |Real.log w| ≤ |Real.log (1 + x)| + 9 / 8 * C.u := by
      have := abs_sub_abs_le_abs_sub (Real.log w) (Real.log (1 + x))
      linarith
    nlinarith [abs_nonneg (Real.log w)]

/-- `log1p` of a number of absolute value less than a quarter of epsilon is zero: the relative error is 1 for the very arguments for
which the function exists -/
theorem C98_log1p_refuted (L F C : Fmt) (t : FloatTy) (hs : F.Sub C) (h : C.Big) (x : ℝ) (hx : F.Has (.num x))
    (hu : |x| < (2 : ℝ) ^ (-(C.p : ℤ)) / 2) : log1p L F C t (.num x) = some (.zero false) := by
  have hu8 := h.u_small
  have h1 := abs_lt.1 hu
  have huE : (2 : ℝ) ^ (-(C.p : ℤ)) = C.u := rfl
  rw [huE] at h1
  have hr := rnd_one h hu
  have hM := big_max h
  have hem := h.emax
  have h1M : (1 : ℝ) < (2 : ℝ) ^ C.emax := by
    calc (1 : ℝ) = (2 : ℝ) ^ (0 : ℤ) := (zpow_zero _).symm
      _ < _ := zpow_lt_zpow_right₀ (by norm_num) (by omega)
  have hadd : C.add (.num 1) (.num x) = .num 1 := by
    have := add_val (F := C) (Val.num one_ne_zero) (Val.num hx.1) (by rw [hr, abs_one]; exact h1M)
    rw [hr] at this
    exact this.eq_num one_ne_zero
  rw [log1p_num hs hx (by linarith), hadd]
  have h10 : ¬ (1 : ℝ) < 0 := by norm_num
  simp [log, MathClass.isnan, h10]
  rfl

/-- With the logarithm of the library, `logb` returns the exponent of every value of the type of computation which is at least 2 and
less than a quarter of the supremum. -/
theorem C98_logb (L C : Fmt) (t : FloatTy) (h : TrigFmt L C t) (ho : Ordinary C) (noerr : Bool) (x : ℝ) (hx : C.Has (.num x))
    (k : ℤ) (hk : IsExp k x) (h1 : 2 ≤ |x|) (h2 : |x| < (2 : ℝ) ^ (C.emax - 1)) :
    Gives k (logb C C noerr (ownLog2 L C t) (.num x)) := by
  have hu := u_pos (F := C)
  have hu8 := h.big.u_small
  have hem := h.big.emax
  have hp : 0 < |x| := by linarith
  have hax : C.Has (.num |x|) := ⟨ne_of_gt hp, hx.2.1.abs, by rw [abs_abs]; exact hx.2.2⟩
  have hone : (2 : ℝ) ^ (1 - C.emax) ≤ 1 := by
    calc (2 : ℝ) ^ (1 - C.emax) ≤ (2 : ℝ) ^ (0 : ℤ) := zpow_le_zpow_right₀ (by norm_num) (by omega)
      _ = 1 := zpow_zero _
  obtain ⟨v, r, e, v1, v2, v3, v4, v5, v6, v7, v8, v9⟩ := own_near (L := L) h hax (by linarith) (by linarith)
  rw [v8 (by linarith), mul_zero, add_zero] at v9
  obtain ⟨b1, b2⟩ := logb_exp hx.1 hk
  have hk1 : 1 ≤ k := by
    have : (2 : ℝ) ^ (1 : ℤ) < (2 : ℝ) ^ (k + 1) := by
      rw [zpow_one]; exact lt_of_le_of_lt h1 hk.2
    have := (zpow_lt_zpow_iff_right₀ (by norm_num : (1 : ℝ) < 2)).1 this
    omega
  have hk2 : k < C.emax - 1 := (zpow_lt_zpow_iff_right₀ (by norm_num : (1 : ℝ) < 2)).1 (lt_of_le_of_lt hk.1 h2)
  have hk1' : (1 : ℝ) ≤ k := by exact_mod_cast hk1
  have hk3 : (k : ℝ) + 1 ≤ 2 ^ 30 := by
    have := h.emax
    exact_mod_cast (by omega : k + 1 ≤ 2 ^ 30)
  have hl0 : 0 ≤ Real.logb 2 |x| := by linarith
  rw [abs_of_nonneg hl0] at v9
  have herr : 72 * C.u * Real.logb 2 |x| < 1 / 2 := by
    have : C.u * Real.logb 2 |x| ≤ 1 / 9007199254740992 * 2 ^ 30 := mul_le_mul hu8 (by linarith) hl0 (by norm_num)
    rw [show (1 / 9007199254740992 * 2 ^ 30 : ℝ) = 1 / 8388608 by norm_num] at this
    linarith
  have h9 := abs_le.1 v9
  obtain ⟨m, hm⟩ := isTrunc_exists r
  have hr0 : 0 < r := by linarith
  obtain ⟨-, m1, m2, m3⟩ := id hm
  rw [abs_of_pos hr0] at m1 m2
  have hm0 : 0 ≤ m := by
    by_contra hc
    have : (m : ℝ) < 0 := by exact_mod_cast not_le.1 hc
    nlinarith
  have hm0' : (0 : ℝ) ≤ m := by exact_mod_cast hm0
  rw [abs_of_nonneg hm0'] at m1 m2
  have hm1 : m ≤ k + 1 := by
    have : (m : ℝ) < ((k + 2 : ℤ) : ℝ) := by push_cast; linarith
    have : m < k + 2 := by exact_mod_cast this
    omega
  have hm2 : k ≤ m + 1 := by
    have : (k : ℝ) < ((m + 2 : ℤ) : ℝ) := by push_cast; linarith
    have : k < m + 2 := by exact_mod_cast this
    omega
  have := C.emin_le_zero
  refine C90_logb_near C C ⟨le_refl _, le_refl _, le_refl _⟩ ho noerr _ x hx k m hk (by rw [v2]; exact val_has v3 v4 v5)
    (by rw [v2]; exact v3.isFin) (by rw [v2, v3.val]; exact hm) hm1 hm2 (by omega) (by omega) (by omega)

/-- so does `ilogb` -/
theorem C98_ilogb (L C : Fmt) (t : FloatTy) (h : TrigFmt L C t) (ho : Ordinary C) (noerr : Bool) (i0 inan : ℤ) (z : ℝ)
    (hz : C.Has (.num z)) (k : ℤ) (hk : IsExp k z) (h1 : 2 ≤ |z|) (h2 : |z| < (2 : ℝ) ^ (C.emax - 1)) :
    ilogb C C noerr (ownLog2 L C t) i0 inan (.num |z|) = some (.ret k) := by
  have hp : 0 < |z| := by linarith
  have hax : C.Has (.num |z|) := ⟨ne_of_gt hp, hz.2.1.abs, by rw [abs_abs]; exact hz.2.2⟩
  obtain ⟨e1, e2⟩ := exp_range hz hk
  obtain ⟨-, -, c1, c2⟩ := id ho
  have hg := C98_logb L C t h ho noerr |z| hax k (isExp_abs hk) (by rw [abs_abs]; exact h1) (by rw [abs_abs]; exact h2)
  refine C90_ilogb C C noerr _ i0 inan |z| hax k hg ?_ ?_
  · unfold minInt; omega
  · unfold maxInt; omega

/-- which is what the reduction of the arguments of the trigonometric functions requires -/
theorem MathLogs.own_upTo {L C : Fmt} {t : FloatTy} (h : TrigFmt L C t) (ho : Ordinary C) (noerr : Bool) (i0 inan : ℤ) {b : ℝ}
    (hb : b < (2 : ℝ) ^ (C.emax - 1)) : LogbUpTo C (ilogb C C noerr (ownLog2 L C t) i0 inan) b := by
  intro z k hz h1 h2 hk
  exact C98_ilogb L C t h ho noerr i0 inan z hz k hk (by linarith) (by linarith)

/-- The cosine with the library's own functions. Missing: see `C97_cos_partial`. -/
theorem C98_cos_partial (L F C : Fmt) (t : FloatTy) (hs : F.Sub C) (h : TrigFmt L C t) (ho : Ordinary C) (noerr : Bool)
    (i0 inan : ℤ) (x : ℝ) (hx : F.Has (.num x)) (hb : |x| ≤ (2 : ℝ) ^ (C.emax - 2)) :
    ∃ v, cos L F C t (ilogb C C noerr (ownLog2 L C t) i0 inan) (.num x) = some (.ret (F.cvt v)) ∧ C.Has v ∧
      v.isFin ∧ |v.val - Real.cos x| ≤ (3850 + 4 * |x|) * (2 : ℝ) ^ (-(C.p : ℤ)) := by
  refine C97_cos_partial L F C t hs h _ x hx (own_upTo h ho noerr i0 inan ?_)
  have hM := big_max h.big
  have e2 : (2 : ℝ) ^ (C.emax - 1) = 2 * (2 : ℝ) ^ (C.emax - 2) := by
    rw [show C.emax - 1 = 1 + (C.emax - 2) by ring, zpow_add₀ (by norm_num), zpow_one]
  linarith

/-- The sine with the library's own functions. Missing: see `C97_sin_partial`. -/
theorem C98_sin_partial (L F C : Fmt) (t : FloatTy) (hs : F.Sub C) (h : TrigFmt L C t) (ho : Ordinary C) (noerr : Bool)
    (i0 inan : ℤ) (x : ℝ) (hx : F.Has (.num x)) (hb : |x| ≤ (2 : ℝ) ^ (C.emax - 3)) :
    ∃ v, sin L F C t (ilogb C C noerr (ownLog2 L C t) i0 inan) (.num x) = some (.ret (F.cvt v)) ∧ C.Has v ∧
      v.isFin ∧ |v.val - Real.sin x| ≤ (3900 + 6 * |x|) * (2 : ℝ) ^ (-(C.p : ℤ)) := by
  have hM := big_max h.big
  have e2 : (2 : ℝ) ^ (C.emax - 1) = 4 * (2 : ℝ) ^ (C.emax - 3) := by
    rw [show C.emax - 1 = 2 + (C.emax - 3) by ring, zpow_add₀ (by norm_num)]
    norm_num
  have e3 : (2 : ℝ) ^ (C.emax - 2) = 2 * (2 : ℝ) ^ (C.emax - 3) := by
    rw [show C.emax - 2 = 1 + (C.emax - 3) by ring, zpow_add₀ (by norm_num), zpow_one]
  refine C97_sin_partial L F C t hs h _ x hx (by linarith) (own_upTo h ho noerr i0 inan (by linarith))

/-- The remainder of a division by a number of absolute value at least 2, of a dividend of less than a quarter of the supremum, is
exact with the library's own functions. Missing: smaller divisors and greater dividends. -/
theorem C98_fmod_partial (L C : Fmt) (t : FloatTy) (h : TrigFmt L C t) (ho : Ordinary C) (noerr : Bool) (i0 inan : ℤ) (x y : ℝ)
    (hx : C.Has (.num x)) (hy : C.Has (.num y)) (h1 : 2 ≤ |y|) (h2 : |y| ≤ |x|) (h3 : |x| < (2 : ℝ) ^ (C.emax - 1)) :
    ∃ w, fmod C C (ilogb C C noerr (ownLog2 L C t) i0 inan) (.num x) (.num y) = some (.ret w) ∧ C.Has w ∧ w.isFin ∧
      IsRem w.val x y ∧ w.sgn = decide (x < 0) := by
  have kx : IsExp (Int.log 2 |x|) x := abs_lt_two_zpow_log hx.1
  have ky : IsExp (Int.log 2 |y|) y := abs_lt_two_zpow_log hy.1
  have hk : 0 < Int.log 2 |y| + 1 := by
    have : (2 : ℝ) ^ (0 : ℤ) < (2 : ℝ) ^ (Int.log 2 |y| + 1) := by
      rw [zpow_zero]; exact lt_of_le_of_lt (by linarith) ky.2
    exact (zpow_lt_zpow_iff_right₀ (by norm_num : (1 : ℝ) < 2)).1 this
  have := h.big.emax
  exact C91_fmod_partial C C ⟨le_refl _, le_refl _, le_refl _⟩ _ x y hx hy _ _ ⟨h.emin, h.emax, hx, hy, kx, ky, by omega⟩
    (C98_ilogb L C t h ho noerr i0 inan x hx _ kx (by linarith) h3) (C98_ilogb L C t h ho noerr i0 inan y hy _ ky h1 (by linarith))

theorem MathLogs.ordinary_double : Ordinary double := by
  unfold Ordinary
  refine ⟨?_, ?_, ?_, ?_⟩ <;> decide

example : ∃ v, log2 extended float double .double (.num 3) = some (float.cvt v) ∧ double.Has v ∧ v.isFin ∧
    |v.val - Real.logb 2 3| ≤ 72 * (2 : ℝ) ^ (-((double).p : ℤ)) * Real.logb 2 3 := by
  obtain ⟨v, h1, h2, h3, h4, -⟩ := C98_log2_partial extended float double .double (by simp [Fmt.Sub, float, double, ieee])
    trigFmt_double 3 (by exact_mod_cast has_int float 3 (by norm_num) (by decide)) (by
      calc (2 : ℝ) ^ (1 - double.emax) ≤ (2 : ℝ) ^ (0 : ℤ) := zpow_le_zpow_right₀ (by norm_num) (by decide)
        _ ≤ 3 := by norm_num) (by norm_num)
  exact ⟨v, h1, h2, h3, h4 (by norm_num)⟩

example : ∃ v, logA extended float double .double (.num 3) (.num 5) = some (float.cvt v) ∧ double.Has v ∧ v.isFin ∧
    |v.val - Real.logb 3 5| ≤ 133 * (2 : ℝ) ^ (-((double).p : ℤ)) * Real.logb 3 5 :=
  C98_log_a_partial extended float double .double (by simp [Fmt.Sub, float, double, ieee])
    trigFmt_double 3 5 (by exact_mod_cast has_int float 3 (by norm_num) (by decide))
    (by exact_mod_cast has_int float 5 (by norm_num) (by decide)) (by norm_num) (by norm_num)

/-- the remainder of 7 by 3, computed by the library alone -/
example : ∃ w, fmod double double (ilogb double double true (ownLog2 extended double .double) 0 0) (.num 7) (.num 3) = some (.ret w) ∧
    double.Has w ∧ w.isFin ∧ IsRem w.val 7 3 ∧ w.sgn = decide ((7 : ℝ) < 0) := by
  refine C98_fmod_partial extended double .double trigFmt_double ordinary_double true 0 0 7 3
    (by exact_mod_cast has_int double 7 (by norm_num) (by decide)) (by exact_mod_cast has_int double 3 (by norm_num) (by decide))
    ?_ ?_ ?_
  · rw [abs_of_pos] <;> norm_num
  · rw [abs_of_pos, abs_of_pos] <;> norm_num
  · rw [abs_of_pos (by norm_num)]
    calc (7 : ℝ) < (2 : ℝ) ^ (3 : ℤ) := by norm_num
      _ ≤ _ := zpow_le_zpow_right₀ (by norm_num) (by decide)

end Sprout
