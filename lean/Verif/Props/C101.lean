import Verif.Proofs.MathArea
import Verif.Props.C89

/-! # C101: the inverse hyperbolic functions -/

namespace Sprout

open Classical FV Fmt MathTables MathConst MathExp MathLog MathTrig MathHyp MathLogs MathSqrt MathArea

/-- special values -/
theorem C101_special (L F C : Fmt) (t : FloatTy) (s : Bool) :
    asinh L F C t .nan = some .nan ∧ asinh L F C t (.inf s) = some (.inf s) ∧ asinh L F C t (.zero s) = some (.zero s) ∧
    acosh L F C t .nan = some .nan ∧ acosh L F C t (.inf false) = some (.inf false) ∧ acosh L F C t (.inf true) = some .nan ∧
    acosh L F C t (.zero s) = some .nan ∧ acosh L F C t (.num 1) = some (.zero false) ∧
    (∀ x : ℝ, x < 1 → acosh L F C t (.num x) = some .nan) ∧
    atanh L F C t .nan = some .nan ∧ atanh L F C t (.inf s) = some .nan ∧ atanh L F C t (.zero s) = some (.zero s) ∧
    atanh L F C t (.num 1) = some (.inf false) ∧ atanh L F C t (.num (-1)) = some (.inf true) ∧
    (∀ x : ℝ, F.Has (.num x) → 1 < |x| → atanh L F C t (.num x) = some .nan) := by
  have hfi : ∀ s, MathClass.fabs (.inf s) = .inf false := fun s => C89_fabs F (.inf s) trivial
  have hfz : ∀ s, MathClass.fabs (.zero s) = .zero false := fun s => C89_fabs F (.zero s) trivial
  have h1 : (-1 : ℝ) ≠ 1 := by norm_num
  have h2 : ¬ (1 : ℝ) < 0 := by norm_num
  refine ⟨?_, ?_, ?_, ?_, ?_, ?_, ?_, ?_, fun x hx => ?_, ?_, ?_, ?_, ?_, ?_, fun x hx hx1 => ?_⟩
  · simp [asinh, MathClass.isnan]
  · cases s <;> simp [asinh, MathClass.isnan]
  · simp [asinh, MathClass.isnan]
  · simp [acosh, MathClass.isnan]
  · simp [acosh, MathClass.isnan]
  · simp [acosh, MathClass.isnan]
  · simp [acosh, MathClass.isnan]
  · simp [acosh, MathClass.isnan]
  · simp [acosh, MathClass.isnan, hx]
  · simp [atanh, MathClass.isnan]
  · simp [atanh, MathClass.isnan, hfi]
  · simp [atanh, MathClass.isnan, hfz, h2]
  · simp [atanh, MathClass.isnan]
  · simp [atanh, MathClass.isnan, h1]
  · have e : MathClass.fabs (.num x) = .num |x| := C89_fabs F _ hx
    have e1 : x ≠ 1 := by rintro rfl; simp at hx1
    have e2 : x ≠ -1 := by rintro rfl; simp at hx1
    simp [atanh, MathClass.isnan, e, e1, e2, hx1]

namespace MathArea

variable {L F C : Fmt} {t : FloatTy}

theorem asinh_num (hs : F.Sub C) {x : ℝ} (hx : F.Has (.num x)) : asinh L F C t (.num x) = (asinhImpl L C t (.num x)).map F.cvt := by
  simp [asinh, MathClass.isnan, hx.1, (cvt_arg hs hx).1]

theorem acosh_num (hs : F.Sub C) {x : ℝ} (hx : F.Has (.num x)) (h1 : 1 < x) :
    acosh L F C t (.num x) = (acoshImpl L C t (.num x)).map F.cvt := by
  have a : ¬ x < 1 := by linarith
  simp [acosh, MathClass.isnan, a, ne_of_gt h1, (cvt_arg hs hx).1]

theorem atanh_num (hs : F.Sub C) {x : ℝ} (hx : F.Has (.num x)) (h1 : |x| < 1) :
    atanh L F C t (.num x) = (atanhImpl L C t (.num x)).map F.cvt := by
  have e : MathClass.fabs (.num x) = .num |x| := C89_fabs F _ hx
  have e1 : x ≠ 1 := by rintro rfl; simp at h1
  have e2 : x ≠ -1 := by rintro rfl; simp at h1
  have e3 : ¬ 1 < |x| := by linarith
  simp [atanh, MathClass.isnan, e, e1, e2, e3, hx.1, (cvt_arg hs hx).1]

end MathArea

/-- `asinh` of positive numbers up to `10^20`: the absolute error is at most `64 arsinh x + 16` half epsilons. Missing: a relative bound
for small arguments, see `C101_tiny_refuted`; greater arguments, see `C101_overflow_refuted`. -/
theorem C101_asinh_partial (L F C : Fmt) (t : FloatTy) (hs : F.Sub C) (h : TrigFmt L C t) (x : ℝ) (hx : F.Has (.num x))
    (h0 : 0 < x) (h1 : x ≤ 10 ^ 20) : ∃ v, asinh L F C t (.num x) = some (F.cvt v) ∧ C.Has v ∧ v.isFin ∧
      |v.val - Real.arsinh x| ≤ (64 * Real.arsinh x + 16) * (2 : ℝ) ^ (-(C.p : ℤ)) := by
  have hu8 := h.big.u_small
  have hx' := (cvt_arg hs hx).2
  obtain ⟨l, z, l1, l2, l3, l4, l5⟩ := asinh_core (t := t) h hx' (by rw [abs_of_pos h0]; exact h1) (le_refl 1) (by linarith) (by linarith)
  refine ⟨l, by rw [asinh_num hs hx, l1]; rfl, val_has l2 l3 l4, l2.isFin, ?_⟩
  rw [l2.val]
  rw [abs_of_nonneg (Real.arsinh_nonneg_iff.2 (le_of_lt h0))] at l5
  exact le_trans l5 (le_of_eq (by unfold u; ring))

/-- `asinh` of negative numbers: the error grows with the square of the argument. Missing: a bound which does not, see
`C101_asinh_refuted`. -/
theorem C101_asinh_neg_partial (L F C : Fmt) (t : FloatTy) (hs : F.Sub C) (h : TrigFmt L C t) (x : ℝ) (hx : F.Has (.num x))
    (h0 : x < 0) (h1 : 4000 * (1 + x ^ 2) ≤ (2 : ℝ) ^ (C.p : ℤ)) : ∃ v, asinh L F C t (.num x) = some (F.cvt v) ∧ C.Has v ∧ v.isFin ∧
      |v.val - Real.arsinh x| ≤ (64 * |Real.arsinh x| + 6 + 20 * (1 + x ^ 2)) * (2 : ℝ) ^ (-(C.p : ℤ)) := by
  have hu := u_pos (F := C)
  have hx' := (cvt_arg hs hx).2
  have hX : 0 < 1 + x ^ 2 := by positivity
  have hPu : (2 : ℝ) ^ (C.p : ℤ) * C.u = 1 := by
    unfold u
    rw [← zpow_add₀ (by norm_num), add_neg_cancel, zpow_zero]
  have hKu : 2 * (1 + x ^ 2) * C.u ≤ 1 / 2000 := by
    have := mul_le_mul_of_nonneg_right h1 (le_of_lt hu)
    rw [hPu] at this
    linarith
  have hP : (2 : ℝ) ^ (C.p : ℤ) ≤ 4000 * 10 ^ 40 := by
    have := h.big.p113
    calc (2 : ℝ) ^ (C.p : ℤ) ≤ (2 : ℝ) ^ (113 : ℤ) := zpow_le_zpow_right₀ (by norm_num) (by omega)
      _ ≤ _ := by norm_num
  have hb : |x| ≤ 10 ^ 20 := by
    refine abs_le_of_sq_le_sq ?_ (by norm_num)
    have := le_trans h1 hP
    norm_num at this ⊢
    linarith
  obtain ⟨R, hR⟩ : ∃ R, R = Real.sqrt (1 + x ^ 2) := ⟨_, rfl⟩
  have hRR : R * R = 1 + x ^ 2 := by rw [hR]; exact Real.mul_self_sqrt (le_of_lt hX)
  have hR1 : 1 ≤ R := by rw [hR, Real.one_le_sqrt]; nlinarith
  have hxR : -x ≤ R := by
    rw [hR]; exact Real.le_sqrt_of_sq_le (by nlinarith)
  have hK : R ≤ 2 * (1 + x ^ 2) * (x + R) := by
    have hp : (x + R) * (R - x) = 1 := by linear_combination hRR
    have h0 : 0 ≤ x + R := by linarith
    rw [← hRR]
    have : (x + R) * (R - x) ≤ (x + R) * (2 * R) := mul_le_mul_of_nonneg_left (by linarith) h0
    rw [hp] at this
    have h2 := mul_le_mul_of_nonneg_left this (show 0 ≤ R by linarith)
    linarith [show R * ((x + R) * (2 * R)) = 2 * (R * R) * (x + R) by ring]
  obtain ⟨l, z, l1, l2, l3, l4, l5⟩ := asinh_core (t := t) h hx' hb (K := 2 * (1 + x ^ 2)) (by nlinarith) (by rw [← hR]; exact hK) hKu
  refine ⟨l, by rw [asinh_num hs hx, l1]; rfl, val_has l2 l3 l4, l2.isFin, ?_⟩
  rw [l2.val]
  exact le_trans l5 (le_of_eq (by unfold u; ring))

/-- `acosh` of numbers up to `10^20`. Missing: greater arguments, see `C101_overflow_refuted`; a relative bound near one. -/
theorem C101_acosh_partial (L F C : Fmt) (t : FloatTy) (hs : F.Sub C) (h : TrigFmt L C t) (x : ℝ) (hx : F.Has (.num x))
    (h0 : 1 < x) (h1 : x ≤ 10 ^ 20) : ∃ v, acosh L F C t (.num x) = some (F.cvt v) ∧ C.Has v ∧ v.isFin ∧
      |v.val - Real.arcosh x| ≤ (64 * Real.arcosh x + 12 + 6 * (x / Real.sqrt (x ^ 2 - 1))) * (2 : ℝ) ^ (-(C.p : ℤ)) := by
  obtain ⟨l, z, l1, l2, l3, l4, l5⟩ := acosh_core (t := t) h (cvt_arg hs hx).2 h0 h1
  refine ⟨l, by rw [acosh_num hs hx h0, l1]; rfl, val_has l2 l3 l4, l2.isFin, ?_⟩
  rw [l2.val]
  exact l5

/-- `atanh`, for all arguments. Missing: a relative bound for small arguments, see `C101_tiny_refuted`. -/
theorem C101_atanh_partial (L F C : Fmt) (t : FloatTy) (hs : F.Sub C) (h : TrigFmt L C t) (x : ℝ) (hx : F.Has (.num x))
    (h1 : |x| < 1) : ∃ v, atanh L F C t (.num x) = some (F.cvt v) ∧ C.Has v ∧ v.isFin ∧
      |v.val - Real.artanh x| ≤ (66 * |Real.artanh x| + 8) * (2 : ℝ) ^ (-(C.p : ℤ)) := by
  obtain ⟨l, z, l1, l2, l3, l4, l5⟩ := atanh_core (t := t) h (cvt_arg hs hx).2 h1
  refine ⟨l, by rw [atanh_num hs hx h1, l1]; rfl, val_has l2 l3 l4, l2.isFin, ?_⟩
  rw [l2.val]
  exact l5

/-- `asinh` and `atanh` of tiny arguments are zero; they should be about the argument. -/
theorem C101_tiny_refuted (L F C : Fmt) (t : FloatTy) (hs : F.Sub C) (w : C.Big) (x : ℝ) (hx : F.Has (.num x))
    (h1 : |x| ≤ (2 : ℝ) ^ (-(C.p : ℤ)) / 4) :
    asinh L F C t (.num x) = some (.zero false) ∧ atanh L F C t (.num x) = some (.zero false) := by
  change |x| ≤ C.u / 4 at h1
  have hu := u_pos (F := C)
  have hu8 := w.u_small
  have hM := NearR.big_max30 w
  have h60 : (1 : ℝ) ≤ 10 ^ 60 := by norm_num
  have hM2 : (2 : ℝ) ^ (C.emax - 1) ≤ (2 : ℝ) ^ C.emax := zpow_le_zpow_right₀ (by norm_num) (by omega)
  have hlt : (1 : ℝ) < (2 : ℝ) ^ C.emax := by
    have : (1 : ℝ) < 10 ^ 60 := by norm_num
    linarith
  have hxC := (cvt_arg hs hx).2
  have hone : C.Has (.num 1) := ⟨one_ne_zero, C.rep_one, by rw [abs_one]; exact hlt⟩
  have one : ∀ v : FV, ∀ y : ℝ, Val v y → |y| < C.u / 2 → C.add v (.num 1) = .num 1 ∧ C.add (.num 1) v = .num 1 ∧
      C.sub (.num 1) v = .num 1 := by
    intro v y hv hy
    have e1 : C.rnd (y + 1) = 1 := by rw [add_comm]; exact rnd_one w hy
    have e2 : C.rnd (1 + y) = 1 := rnd_one w hy
    have e3 : C.rnd (1 - y) = 1 := by rw [sub_eq_add_neg]; exact rnd_one w (by rwa [abs_neg])
    have a1 := add_val (F := C) hv (Val.num one_ne_zero) (by rw [e1, abs_one]; exact hlt)
    have a2 := add_val (F := C) (Val.num one_ne_zero) hv (by rw [e2, abs_one]; exact hlt)
    have a3 := sub_val (F := C) (Val.num one_ne_zero) hv (by rw [e3, abs_one]; exact hlt)
    rw [e1] at a1
    rw [e2] at a2
    rw [e3] at a3
    exact ⟨a1.eq_num one_ne_zero, a2.eq_num one_ne_zero, a3.eq_num one_ne_zero⟩
  have hl : log L C C t (.num 1) = some (.zero false) := (C96_log_special L C C t).2.2.2.2.2
  have hx2 : |x| < C.u / 2 := by linarith
  obtain ⟨-, p2, p3⟩ := one _ x (Val.num hx.1) hx2
  constructor
  · have hsq : |C.rnd (x * x)| < C.u / 2 := by
      have : |C.rnd (x * x)| ≤ |x| := by
        refine rnd_abs_le ?_ hxC.2.1.abs
        rw [abs_mul]
        have := mul_le_mul_of_nonneg_right (show |x| ≤ 1 by linarith) (abs_nonneg x)
        linarith
      linarith
    have hm := mul_val (F := C) (Val.num hx.1) (Val.num hx.1) (by linarith)
    obtain ⟨p1, -, -⟩ := one _ _ hm hsq
    have hsr : sqrt C C (.num 1) = some (.num 1) := by
      have := C93_sqrt_exact C C ⟨le_refl _, le_refl _, le_refl _⟩ w.wide 1 one_pos hone (by rw [mul_one]; exact hone)
      rwa [mul_one] at this
    rw [asinh_num hs hx]
    unfold asinhImpl
    rw [p1, hsr, Option.bind_some, (one _ x (Val.num hx.1) hx2).1, hl]
    rfl
  · have hd : C.div (.num 1) (.num 1) = .num 1 := by
      have e : C.rnd ((1 : ℝ) / 1) = 1 := by rw [div_one]; exact rnd_of_rep C.rep_one
      have := div_val (F := C) (Val.num one_ne_zero) (Val.num one_ne_zero) one_ne_zero (by rw [e, abs_one]; exact hlt)
      rw [e] at this
      exact this.eq_num one_ne_zero
    rw [atanh_num hs hx (by linarith)]
    unfold atanhImpl
    rw [p2, p3, hd, hl]
    have e : (0 : ℝ) / 2 = 0 := zero_div 2
    have h2 : ¬ (2 : ℝ) < 0 := by norm_num
    have hz : C.div (.zero false) (.num 2) = .zero false := by
      simp [Fmt.div, FV.sgn, FV.val, e, ofReal, rnd_zero, h2]
    simp only [Option.map_some, hz]
    rfl

/-- `asinh` of arguments of which the square overflows is positive infinity, also if they are negative; so is `acosh`. -/
theorem C101_overflow_refuted (L F C : Fmt) (t : FloatTy) (hs : F.Sub C) (x : ℝ) (hx : F.Has (.num x))
    (h1 : (2 : ℝ) ^ C.emax ≤ x ^ 2) :
    asinh L F C t (.num x) = some (.inf false) ∧ (0 < x → acosh L F C t (.num x) = some (.inf false)) := by
  have hxC := (cvt_arg hs hx).2
  have hp : (1 : ℝ) < (2 : ℝ) ^ C.emax := by
    have := C.p_lt_emax
    calc (1 : ℝ) = (2 : ℝ) ^ (0 : ℤ) := (zpow_zero _).symm
      _ < _ := zpow_lt_zpow_right₀ (by norm_num) (by omega)
  have hxx : 0 ≤ x * x := mul_self_nonneg x
  have hm : C.mul (.num x) (.num x) = .inf false := by
    have hr : (2 : ℝ) ^ C.emax ≤ |C.rnd (x * x)| := by
      refine le_trans (le_rnd (by rw [← pow_two]; exact h1) (Rep.two_zpow _ ?_ C.one_le_p)) (le_abs_self _)
      have := C.emin_le_zero
      have := C.p_lt_emax
      omega
    change C.ofReal _ (x * x) = _
    rw [ofReal_inf hr, decide_eq_false (not_lt.2 hxx)]
  have hsr : sqrt C C (.inf false) = some (.inf false) := (C93_sqrt_special C C).2.1
  have hl : log L C C t (.inf false) = some (.inf false) := (C96_log_special L C C t).2.2.1
  constructor
  · rw [asinh_num hs hx]
    unfold asinhImpl
    rw [hm]
    simp [Fmt.add, hsr, hl, Fmt.cvt]
  · intro h0
    rw [acosh_num hs hx (by nlinarith)]
    unfold acoshImpl
    rw [hm]
    simp [Fmt.sub, FV.neg, Fmt.add, hsr, hl, Fmt.cvt]

/-- `asinh` of the powers of two `-2^k` from about `2^(p/2)` is negative infinity; it should be about `-(k + 1) ln 2`. -/
theorem C101_asinh_refuted (L F C : Fmt) (t : FloatTy) (hs : F.Sub C) (w : C.Big) (k : ℤ) (hk : C.p + 1 ≤ 2 * k) (hk2 : 2 * k < C.emax)
    (hx : F.Has (.num (-(2 : ℝ) ^ k))) :
    asinh L F C t (.num (-(2 : ℝ) ^ k)) = some (.inf true) ∧ -((k + 1 : ℝ) * Real.log 2 + 1) ≤ Real.arsinh (-(2 : ℝ) ^ k) := by
  have hu := u_pos (F := C)
  have hu8 := w.u_small
  have hp := w.p53
  have hemin := w.emin
  have hxC := (cvt_arg hs hx).2
  obtain ⟨K, hK⟩ : ∃ K, K = (2 : ℝ) ^ k := ⟨_, rfl⟩
  have hK0 : 0 < K := by rw [hK]; positivity
  have hKK : K * K = (2 : ℝ) ^ (2 * k) := by rw [hK, ← zpow_add₀ (by norm_num)]; congr 1; ring
  have hK1 : 1 ≤ K := by
    rw [hK]
    calc (1 : ℝ) = (2 : ℝ) ^ (0 : ℤ) := (zpow_zero _).symm
      _ ≤ _ := zpow_le_zpow_right₀ (by norm_num) (by omega)
  rw [← hK] at hx hxC ⊢
  have hrK : Rep C.p C.emin (K * K) := by rw [hKK]; exact Rep.two_zpow _ (by omega) C.one_le_p
  have hltK : |K * K| < (2 : ℝ) ^ C.emax := by
    rw [abs_of_pos (by positivity), hKK]; exact zpow_lt_zpow_right₀ (by norm_num) hk2
  have hKC : C.Has (.num K) := by
    refine ⟨ne_of_gt hK0, ?_, ?_⟩
    · have := hxC.2.1.neg; rwa [neg_neg] at this
    · have := hxC.2.2; rwa [abs_neg] at this
  have hKKC : C.Has (.num (K * K)) := ⟨by positivity, hrK, hltK⟩
  -- the sum with one
  have huK : 2 ≤ C.u * (K * K) := by
    rw [hKK]
    unfold u
    rw [← zpow_add₀ (by norm_num)]
    calc (2 : ℝ) = (2 : ℝ) ^ (1 : ℤ) := by norm_num
      _ ≤ _ := zpow_le_zpow_right₀ (by norm_num) (by omega)
  have hsum : C.rnd (K * K + 1) = K * K := by
    have e := rnd_add_rel hrK C.rep_one
    rw [abs_of_pos (a := K * K + 1) (by positivity)] at e
    have e2 := (abs_le.1 e).2
    have lo : K * K ≤ C.rnd (K * K + 1) := le_rnd (by linarith) hrK
    obtain ⟨m, hm⟩ := (C.rnd_rep (K * K + 1)).grid' (e := 2 * k + 1 - C.p) (by
      rw [show (C.p : ℤ) - 1 + (2 * k + 1 - C.p) = 2 * k by ring, ← hKK]
      exact lo)
    have g : (2 : ℝ) ^ (2 * k + 1 - (C.p : ℤ)) = 2 * C.u * (K * K) := by
      rw [hKK]; unfold u
      rw [show 2 * k + 1 - (C.p : ℤ) = 1 + (-C.p + 2 * k) by ring, zpow_add₀ (by norm_num), zpow_add₀ (by norm_num), zpow_one]
      ring
    have g2 : K * K = ((2 ^ (C.p - 1) : ℤ) : ℝ) * (2 * C.u * (K * K)) := by
      have : ((2 ^ (C.p - 1) : ℤ) : ℝ) * 2 * C.u = 1 := by
        unfold u
        push_cast
        rw [← pow_succ, Nat.sub_add_cancel (by omega), ← zpow_natCast, ← zpow_add₀ (by norm_num), add_neg_cancel, zpow_zero]
      linear_combination (-(K * K)) * this
    rw [g] at hm
    have hpos : 0 < 2 * C.u * (K * K) := by positivity
    have h1 : ((2 ^ (C.p - 1) : ℤ) : ℝ) ≤ m := by
      refine le_of_mul_le_mul_right ?_ hpos
      rw [← g2, ← hm]; exact lo
    have h2 : (m : ℝ) < ((2 ^ (C.p - 1) : ℤ) : ℝ) + 1 := by
      refine lt_of_mul_lt_mul_right ?_ (le_of_lt hpos)
      rw [add_mul, ← g2, ← hm]
      linarith
    have h3 : m = 2 ^ (C.p - 1) := by
      have a : (2 ^ (C.p - 1) : ℤ) ≤ m := by exact_mod_cast h1
      have b : m < 2 ^ (C.p - 1) + 1 := by exact_mod_cast h2
      omega
    rw [hm, h3, ← g2]
  have hm1 : C.mul (.num (-K)) (.num (-K)) = .num (K * K) := by
    have e : C.rnd (-K * -K) = K * K := by rw [neg_mul_neg]; exact rnd_of_rep hrK
    have := mul_val (F := C) (Val.num (neg_ne_zero.2 (ne_of_gt hK0))) (Val.num (neg_ne_zero.2 (ne_of_gt hK0))) (by rw [e]; exact hltK)
    rw [e] at this
    exact this.eq_num (by positivity)
  have hm2 : C.add (.num (K * K)) (.num 1) = .num (K * K) := by
    have := add_val (F := C) (Val.num (show K * K ≠ 0 by positivity)) (Val.num one_ne_zero) (by rw [hsum]; exact hltK)
    rw [hsum] at this
    exact this.eq_num (by positivity)
  have hsr := C93_sqrt_exact C C ⟨le_refl _, le_refl _, le_refl _⟩ w.wide K hK0 hKC hKKC
  have hm3 : C.add (.num (-K)) (.num K) = .zero false := by
    change C.ofReal (decide (-K + K < 0)) (-K + K) = _
    rw [neg_add_cancel]
    unfold ofReal
    simp [rnd_zero]
  constructor
  · rw [asinh_num hs hx]
    unfold asinhImpl
    rw [hm1, hm2, hsr, Option.bind_some, hm3, (C96_log_special L C C t).2.1 false]
    rfl
  · rw [Real.arsinh_neg, neg_le_neg_iff]
    unfold Real.arsinh
    have hq : Real.sqrt (1 + K ^ 2) ≤ K + 1 := by
      rw [Real.sqrt_le_left (by linarith)]; nlinarith
    have h1 : K + Real.sqrt (1 + K ^ 2) ≤ 2 * K * (1 + 1 / 2) := by linarith
    have h2 := Real.log_le_log (by have := Real.sqrt_nonneg (1 + K ^ 2); linarith) h1
    rw [Real.log_mul (by positivity) (by norm_num), Real.log_mul (by norm_num) (ne_of_gt hK0)] at h2
    have h3 := Real.log_le_sub_one_of_pos (show (0 : ℝ) < 1 + 1 / 2 by norm_num)
    have h4 : Real.log K = k * Real.log 2 := by rw [hK, Real.log_zpow]
    rw [h4] at h2
    linarith

/-- `asinh(3)` -/
example : ∃ v, asinh extended float double .double (.num 3) = some (float.cvt v) ∧ double.Has v ∧ v.isFin ∧
    |v.val - Real.arsinh 3| ≤ (64 * Real.arsinh 3 + 16) * (2 : ℝ) ^ (-((double).p : ℤ)) :=
  C101_asinh_partial extended float double .double (by simp [Fmt.Sub, float, double, ieee]) trigFmt_double 3
    (by exact_mod_cast has_int float 3 (by norm_num) (by decide)) (by norm_num) (by norm_num)

/-- `atanh(1/2)` -/
example : ∃ v, atanh extended double double .double (.num (1 / 2)) = some (double.cvt v) ∧ double.Has v ∧ v.isFin ∧
    |v.val - Real.artanh (1 / 2)| ≤ (66 * |Real.artanh (1 / 2)| + 8) * (2 : ℝ) ^ (-((double).p : ℤ)) := by
  refine C101_atanh_partial extended double double .double ⟨le_refl _, le_refl _, le_refl _⟩ trigFmt_double (1 / 2)
    ⟨by norm_num, rep_half big_double, ?_⟩ ?_
  · rw [abs_of_pos (by norm_num)]
    calc (1 / 2 : ℝ) < (2 : ℝ) ^ (0 : ℤ) := by norm_num
      _ ≤ _ := zpow_le_zpow_right₀ (by norm_num) (by decide)
  · rw [abs_of_pos] <;> norm_num

/-- `asinh(-2^30)` of `double` is negative infinity -/
example : asinh extended double double .double (.num (-(2 : ℝ) ^ (30 : ℤ))) = some (.inf true) := by
  refine (C101_asinh_refuted extended double double .double ⟨le_refl _, le_refl _, le_refl _⟩ big_double 30 (by decide) (by decide)
    ⟨neg_ne_zero.2 (by positivity), (Rep.two_zpow _ (by decide) (by decide)).neg, ?_⟩).1
  rw [abs_neg, abs_of_pos (by positivity)]
  exact zpow_lt_zpow_right₀ (by norm_num) (by decide)

end Sprout
