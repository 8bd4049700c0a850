import Verif.Proofs.MathAtan
import Verif.Props.C99

/-! # C102: the arc tangent -/

namespace Sprout

open Classical FV Fmt MathTables MathConst MathExp MathLog MathTrig MathHyp MathAtan

/-- `atan` of every number: the relative error of the type of computation is at most 40 half epsilons -/
theorem C102_atan (L F C : Fmt) (t : FloatTy) (hs : F.Sub C) (h : TrigFmt L C t) (x : ℝ) (hx : F.Has (.num x)) :
    ∃ v, atan L F C t (.num x) = some (F.cvt v) ∧ C.Has v ∧ v.isFin ∧
      |v.val - Real.arctan x| ≤ 40 * (2 : ℝ) ^ (-(C.p : ℤ)) * |Real.arctan x| := by
  obtain ⟨e, hC⟩ := cvt_arg hs hx
  rcases lt_or_gt_of_ne hx.1 with h0 | h0
  · have hn : F.Has (.num (-x)) := ⟨by linarith, hx.2.1.neg, by rw [abs_neg]; exact hx.2.2⟩
    obtain ⟨e', hC'⟩ := cvt_arg hs hn
    obtain ⟨a, r, a1, a2, a3, a4, a5⟩ := impl_near h hC' (by linarith)
    rw [Real.arctan_neg] at a5
    refine ⟨a.neg, ?_, val_has a2.neg a3.neg (by rwa [abs_neg]), a2.neg.isFin, ?_⟩
    · simp only [atan, MathClass.isnan]
      simp [ne_of_lt h0, h0, FV.neg, e', a1]
    · rw [a2.neg.val, abs_of_neg (Real.arctan_lt_zero.2 h0), show -r - Real.arctan x = -(r - -Real.arctan x) by ring, abs_neg]
      exact a5
  · obtain ⟨a, r, a1, a2, a3, a4, a5⟩ := impl_near h hC h0
    refine ⟨a, ?_, val_has a2 a3 a4, a2.isFin, ?_⟩
    · simp only [atan, MathClass.isnan]
      simp [ne_of_gt h0, not_lt.2 (le_of_lt h0), e, a1]
    · rw [a2.val, abs_of_pos (Real.arctan_pos.2 h0)]
      exact a5

/-- `atan` is odd -/
theorem C102_odd (L F C : Fmt) (t : FloatTy) (hs : F.Sub C) (x : ℝ) (hx : F.Has (.num x)) (h0 : 0 < x) :
    atan L F C t (.num (-x)) = ((atanImpl L C t (.num x)).map FV.neg).map F.cvt ∧
    atan L F C t (.num x) = (atanImpl L C t (.num x)).map F.cvt := by
  obtain ⟨e, hC⟩ := cvt_arg hs hx
  constructor
  · simp only [atan, MathClass.isnan]
    simp [ne_of_gt h0, h0, FV.neg, e]
  · simp only [atan, MathClass.isnan]
    simp [ne_of_gt h0, not_lt.2 (le_of_lt h0), e]

/-- special values of `atan` -/
theorem C102_special (L F C : Fmt) (t : FloatTy) (s : Bool) :
    atan L F C t .nan = some .nan ∧ atan L F C t (.zero s) = some (.zero s) ∧
    atan L F C t (.inf false) = some (const L F .halfPi) ∧ atan L F C t (.inf true) = some (const L F .halfPi).neg := by
  refine ⟨?_, ?_, ?_, ?_⟩ <;> simp [atan, MathClass.isnan]

/-- `atan2` of numbers, compared with the argument of the complex number `x + i y` -/
theorem C102_atan2 (L F C : Fmt) (t : FloatTy) (hs : F.Sub C) (h : TrigFmt L C t) (y x : ℝ) (hy : F.Has (.num y)) (hx : F.Has (.num x)) :
    ∃ v, atan2 L F C t (.num y) (.num x) = some (F.cvt v) ∧ C.Has v ∧ v.isFin ∧
      |v.val - Complex.arg ⟨x, y⟩| ≤ 64 * (2 : ℝ) ^ (-(C.p : ℤ)) * |Complex.arg ⟨x, y⟩| + (2 : ℝ) ^ C.emin := by
  have w := h.big
  have hu := u_pos (F := C)
  obtain ⟨ex, hxC⟩ := cvt_arg hs hx
  obtain ⟨ey, hyC⟩ := cvt_arg hs hy
  have hη0 : (0 : ℝ) < (2 : ℝ) ^ C.emin := by positivity
  have hdef : atan2 L F C t (.num y) (.num x) = (atan2Impl L C t (.num y) (.num x)).map F.cvt := by
    simp only [atan2, MathClass.isnan]
    simp [hx.1, hy.1, ex, ey]
  obtain ⟨a, z, a1, a2, a3, a4, a5⟩ := atan_quot (t := t) h hxC hyC
  change ∃ v : FV, _ ∧ _ ∧ _ ∧ |v.val - Complex.arg ⟨x, y⟩| ≤ 64 * C.u * |Complex.arg ⟨x, y⟩| + (2 : ℝ) ^ C.emin
  rw [hdef]
  unfold atan2Impl
  rw [a1]
  rcases lt_or_gt_of_ne hx.1 with h0 | h0
  · obtain ⟨c, c1, c2, c3⟩ := const_near h .pi
    rw [show Const.pi.real = Real.pi from rfl] at c3
    have hA1 := Real.neg_pi_div_two_lt_arctan (y / x)
    have hA2 := Real.arctan_lt_pi_div_two (y / x)
    have hpi := Real.pi_gt_three
    rcases lt_or_gt_of_ne hy.1 with k0 | k0
    · have hq : 0 < y / x := div_pos_of_neg_of_neg k0 h0
      have hap := Real.arctan_pos.2 hq
      obtain ⟨r, r1, r2, r3, r4⟩ := add_pi (P := -Real.pi) w a2 a3 (Val.num c2.1).neg c2.2.1.neg a5
        (by rw [show -c - -Real.pi = -(c - Real.pi) by ring, abs_neg]; exact c3)
        (by rw [abs_of_neg (by linarith), abs_of_pos hap]; ring) (by rw [abs_of_pos hap]; linarith)
      refine ⟨_, ?_, val_has r1 r2 r3, r1.isFin, ?_⟩
      · simp [h0, k0, c1]
      · rw [← sub_eq_add_neg] at r4
        rw [r1.val, arg_neg_neg h0 k0]
        linarith
    · have hq : y / x < 0 := div_neg_of_pos_of_neg k0 h0
      have hap := Real.arctan_lt_zero.2 hq
      obtain ⟨r, r1, r2, r3, r4⟩ := add_pi (P := Real.pi) w a2 a3 (Val.num c2.1) c2.2.1 a5 c3
        (by rw [abs_of_pos (by linarith), abs_of_neg hap]; ring) (by rw [abs_of_neg hap]; linarith)
      refine ⟨_, ?_, val_has r1 r2 r3, r1.isFin, ?_⟩
      · simp [h0, not_lt.2 (le_of_lt k0), c1]
      · rw [r1.val, arg_neg_pos h0 k0]
        linarith
  · refine ⟨a, ?_, val_has a2 a3 a4, a2.isFin, ?_⟩
    · simp [not_lt.2 (le_of_lt h0)]
    · rw [a2.val, arg_pos h0]
      have : 0 ≤ C.u * |Real.arctan (y / x)| := by positivity
      linarith

/-- the literal constants are positive numbers -/
theorem C102_pi_pos (L F : Fmt) (hs : F.Sub L) (hp : 8 ≤ F.p) : ∃ r, const L F .pi = .num r ∧ 0 < r ∧
    |r - Real.pi| ≤ 3 * (2 : ℝ) ^ (-(F.p : ℤ)) * Real.pi + 1 / 10 ^ 109 := by
  obtain ⟨r, h1, h2, h3⟩ := C95_constants L F hs hp .pi
  rw [show Const.pi.real = Real.pi from rfl] at h3
  have hpi := Real.pi_gt_three
  have hL : (2 : ℝ) ^ (-(L.p : ℤ)) ≤ (2 : ℝ) ^ (-(F.p : ℤ)) :=
    zpow_le_zpow_right₀ (by norm_num) (by have := hs.1; omega)
  have h4 := mul_le_mul_of_nonneg_right hL (show 0 ≤ Real.pi by linarith)
  have h5 : |r - Real.pi| ≤ 3 * (2 : ℝ) ^ (-(F.p : ℤ)) * Real.pi + 1 / 10 ^ 109 := by linarith
  refine ⟨r, h1, ?_, h5⟩
  have h6 : (2 : ℝ) ^ (-(F.p : ℤ)) ≤ (2 : ℝ) ^ (-8 : ℤ) := zpow_le_zpow_right₀ (by norm_num) (by omega)
  have h7 := mul_le_mul_of_nonneg_right h6 (show 0 ≤ Real.pi by linarith)
  have h8 := (abs_le.1 h5).1
  norm_num at h7 h8
  linarith

/-- special values of `atan2`; the sign of a zero `y` counts only where `x` is positive -/
theorem C102_atan2_special_partial (L F C : Fmt) (t : FloatTy) (hs : F.Sub L) (hp : 8 ≤ F.p) (s : Bool) (v : FV) (x : ℝ) (hx : x ≠ 0) :
    atan2 L F C t .nan v = some .nan ∧ atan2 L F C t v .nan = some .nan ∧
    atan2 L F C t (.inf false) (.inf true) = some (const L F .threeQuartersPi) ∧
    atan2 L F C t (.inf true) (.inf true) = some (const L F .threeQuartersPi).neg ∧
    atan2 L F C t (.inf false) (.inf false) = some (const L F .quarterPi) ∧
    atan2 L F C t (.inf true) (.inf false) = some (const L F .quarterPi).neg ∧
    atan2 L F C t (.num x) (.inf true) = some (if x < 0 then (const L F .pi).neg else const L F .pi) ∧
    atan2 L F C t (.zero false) (.inf true) = some (const L F .pi) ∧
    atan2 L F C t (.num x) (.inf false) = some (.zero (decide (x < 0))) ∧
    atan2 L F C t (.zero s) (.inf false) = some (.zero s) ∧
    atan2 L F C t (.inf false) (.num x) = some (const L F .halfPi) ∧ atan2 L F C t (.inf true) (.num x) = some (const L F .halfPi).neg ∧
    atan2 L F C t (.inf false) (.zero s) = some (const L F .halfPi) ∧ atan2 L F C t (.inf true) (.zero s) = some (const L F .halfPi).neg ∧
    (x < 0 → atan2 L F C t (.zero false) (.num x) = some (const L F .pi)) ∧
    (0 < x → atan2 L F C t (.zero s) (.num x) = some (.zero s)) ∧
    atan2 L F C t (.zero s) (.zero false) = some (.zero s) ∧
    atan2 L F C t (.num x) (.zero s) = some (if x < 0 then (const L F .halfPi).neg else const L F .halfPi) := by
  obtain ⟨r, h1, h2, -⟩ := C102_pi_pos L F hs hp
  have h3 := ne_of_gt h2
  have h4 : ¬ r < 0 := not_lt.2 (le_of_lt h2)
  refine ⟨?_, ?_, ?_, ?_, ?_, ?_, ?_, ?_, ?_, ?_, ?_, ?_, ?_, ?_, fun h0 => ?_, fun h0 => ?_, ?_, ?_⟩
  · simp [atan2, MathClass.isnan]
  · cases v <;> simp [atan2, MathClass.isnan]
  · simp [atan2, MathClass.isnan]
  · simp [atan2, MathClass.isnan]
  · simp [atan2, MathClass.isnan]
  · simp [atan2, MathClass.isnan]
  · by_cases hx0 : x < 0 <;> simp [atan2, MathClass.isnan, MathClass.copysign, MathClass.signbit, h1, h3, h4, hx0]
  · simp [atan2, MathClass.isnan, MathClass.copysign, MathClass.signbit, h1, h3, h4]
  · simp [atan2, MathClass.isnan, Fmt.mul, FV.sgn, FV.val, Fmt.ofReal, rnd_zero]
  · simp [atan2, MathClass.isnan, Fmt.mul, FV.sgn, FV.val, Fmt.ofReal, rnd_zero]
  · simp [atan2, MathClass.isnan]
  · simp [atan2, MathClass.isnan]
  · simp [atan2, MathClass.isnan]
  · simp [atan2, MathClass.isnan]
  · simp [atan2, MathClass.isnan, MathClass.copysign, MathClass.signbit, h1, h3, h4, h0]
  · simp [atan2, MathClass.isnan, Fmt.mul, FV.sgn, FV.val, Fmt.ofReal, rnd_zero, h0, not_lt.2 (le_of_lt h0)]
  · simp [atan2, MathClass.isnan, Fmt.mul, FV.sgn, FV.val, Fmt.ofReal, rnd_zero, MathClass.signbit]
  · simp [atan2, MathClass.isnan, hx]

/-- of a negative zero `y` and negative `x` the result is `+pi`, should be `-pi`; of zeros `y` and negative zero `x` it is zero,
should be `±pi` -/
theorem C102_atan2_refuted (L F C : Fmt) (t : FloatTy) (hs : F.Sub L) (hp : 8 ≤ F.p) (s : Bool) (x : ℝ) (hx : x < 0) :
    ∃ r : ℝ, 0 < r ∧ const L F .pi = .num r ∧
      atan2 L F C t (.zero true) (.num x) = some (.num r) ∧ atan2 L F C t (.zero true) (.inf true) = some (.num r) ∧
      atan2 L F C t (.zero s) (.zero true) = some (.zero s) := by
  obtain ⟨r, h1, h2, -⟩ := C102_pi_pos L F hs hp
  have h3 := ne_of_gt h2
  have h4 : ¬ r < 0 := not_lt.2 (le_of_lt h2)
  refine ⟨r, h2, h1, ?_, ?_, ?_⟩
  · simp [atan2, MathClass.isnan, MathClass.copysign, MathClass.signbit, h1, h3, h4, hx]
  · simp [atan2, MathClass.isnan, MathClass.copysign, MathClass.signbit, h1, h3, h4]
  · simp [atan2, MathClass.isnan, Fmt.mul, FV.sgn, FV.val, Fmt.ofReal, rnd_zero, MathClass.signbit]

/-- the conclusion holds of `double`: an arc tangent of the type of computation which is exact up to 40 half epsilons -/
example (x : ℝ) (hx : Fmt.double.Has (.num x)) : ∃ v, atan Fmt.extended Fmt.double Fmt.double .double (.num x) = some (Fmt.double.cvt v) ∧
    |v.val - Real.arctan x| ≤ 40 * (2 : ℝ) ^ (-53 : ℤ) * |Real.arctan x| := by
  obtain ⟨v, h1, -, -, h2⟩ := C102_atan Fmt.extended Fmt.double Fmt.double .double ⟨le_refl _, le_refl _, le_refl _⟩ trigFmt_double x hx
  exact ⟨v, h1, h2⟩

/-- `atan2(1, -1)` of type `double` is `3 pi / 4` up to 64 half epsilons -/
example : ∃ v, atan2 Fmt.extended Fmt.double Fmt.double .double (.num 1) (.num (-1)) = some (Fmt.double.cvt v) ∧
    |v.val - 3 * Real.pi / 4| ≤ 64 * (2 : ℝ) ^ (-53 : ℤ) * (3 * Real.pi / 4) + (2 : ℝ) ^ (-1074 : ℤ) := by
  have h1 := has_int Fmt.double 1 (by norm_num) (by decide)
  have h2 := has_int Fmt.double (-1) (by norm_num) (by decide)
  obtain ⟨v, e, -, -, h3⟩ := C102_atan2 Fmt.extended Fmt.double Fmt.double .double ⟨le_refl _, le_refl _, le_refl _⟩ trigFmt_double 1 (-1)
    (by simpa using h1) (by simpa using h2)
  have ha : Complex.arg ⟨-1, 1⟩ = 3 * Real.pi / 4 := by
    rw [arg_neg_pos (by norm_num) (by norm_num), show (1 : ℝ) / -1 = -1 by norm_num, Real.arctan_neg, Real.arctan_one]
    ring
  rw [ha, abs_of_pos (a := 3 * Real.pi / 4) (by positivity)] at h3
  exact ⟨v, e, h3⟩

end Sprout
