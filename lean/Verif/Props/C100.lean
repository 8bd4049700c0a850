import Verif.Proofs.MathPower
import Verif.Props.C98
import Verif.Props.C89
import Verif.Props.C91

/-! # C100: powers and cubic roots -/

namespace Sprout

open Classical FV Fmt MathTables MathConst MathExp MathLog MathTrig MathHyp MathLogs MathMod MathRound MathPower MathScale

/-- the parity of `y` is determined correctly -/
def ParityOf (F C : Fmt) (il : FV → Option (Ret ℤ)) (y : ℝ) : Prop :=
  isOdd F C il (.num y) = some (.ret (decide (∃ m : ℤ, y = ((2 * m + 1 : ℤ) : ℝ))))

/-- The special values of `pow` according to F.10.4.4 of the C standard, but for one: see `C100_pow_zero_refuted` for the base -0 and
negative odd exponents. -/
theorem C100_pow_special (L F C : Fmt) (t : FloatTy) (il : FV → Option (Ret ℤ)) (noerr : Bool) :
    -- `pow(1, y)`, `pow(x, 0)`, NaN
    (∀ y, pow L F C t il noerr (.num 1) y = some (.ret (.num 1))) ∧
    (∀ x s, pow L F C t il noerr x (.zero s) = some (.ret (.num 1))) ∧
    (∀ x, x ≠ .num 1 → pow L F C t il noerr x .nan = some (.ret .nan)) ∧
    (∀ y, F.Has y → (∀ s, y ≠ .zero s) → pow L F C t il noerr .nan y = some (.ret .nan)) ∧
    -- zeros
    (∀ y : ℝ, y < 0 → ParityOf F C il y →
      (∀ s, (¬ ∃ m : ℤ, y = ((2 * m + 1 : ℤ) : ℝ)) → pow L F C t il noerr (.zero s) (.num y) = some (.ret (.inf false))) ∧
      pow L F C t il noerr (.zero false) (.num y) = some (.ret (.inf false))) ∧
    (∀ s, pow L F C t il noerr (.zero s) (.inf true) = some (.ret (.inf false))) ∧
    (∀ y : ℝ, 0 < y → ParityOf F C il y → ∀ s,
      ((∃ m : ℤ, y = ((2 * m + 1 : ℤ) : ℝ)) → pow L F C t il noerr (.zero s) (.num y) = some (.ret (.zero s))) ∧
      ((¬ ∃ m : ℤ, y = ((2 * m + 1 : ℤ) : ℝ)) → pow L F C t il noerr (.zero s) (.num y) = some (.ret (.zero false)))) ∧
    (∀ s, pow L F C t il noerr (.zero s) (.inf false) = some (.ret (.zero false))) ∧
    -- infinite exponents
    (∀ s, pow L F C t il noerr (.num (-1)) (.inf s) = some (.ret (.num 1))) ∧
    (∀ x : ℝ, F.Has (.num x) → |x| < 1 → pow L F C t il noerr (.num x) (.inf true) = some (.ret (.inf false)) ∧
      pow L F C t il noerr (.num x) (.inf false) = some (.ret (.zero false))) ∧
    (∀ x : ℝ, F.Has (.num x) → 1 < |x| → pow L F C t il noerr (.num x) (.inf true) = some (.ret (.zero false)) ∧
      pow L F C t il noerr (.num x) (.inf false) = some (.ret (.inf false))) ∧
    (∀ s, pow L F C t il noerr (.inf s) (.inf true) = some (.ret (.zero false)) ∧
      pow L F C t il noerr (.inf s) (.inf false) = some (.ret (.inf false))) ∧
    -- infinite bases
    (∀ y : ℝ, y < 0 → pow L F C t il noerr (.inf false) (.num y) = some (.ret (.zero false))) ∧
    (∀ y : ℝ, 0 < y → pow L F C t il noerr (.inf false) (.num y) = some (.ret (.inf false))) ∧
    (∀ y : ℝ, y < 0 → ParityOf F C il y →
      pow L F C t il noerr (.inf true) (.num y) = some (.ret (.zero (decide (∃ m : ℤ, y = ((2 * m + 1 : ℤ) : ℝ)))))) ∧
    (∀ y : ℝ, 0 < y → ParityOf F C il y →
      pow L F C t il noerr (.inf true) (.num y) = some (.ret (.inf (decide (∃ m : ℤ, y = ((2 * m + 1 : ℤ) : ℝ)))))) ∧
    -- negative bases
    (∀ x y : ℝ, x < 0 → F.Has (.num y) → |y| ≤ 2 ^ 64 - 1 → (¬ ∃ k : ℤ, y = k) →
      pow L F C t il noerr (.num x) (.num y) = some (.ret .nan)) := by
  have habs : ∀ x : ℝ, F.Has (.num x) → MathClass.fabs (.num x) = .num |x| := fun x hx => C89_fabs F _ hx
  have hfi : ∀ s, MathClass.fabs (.inf s) = .inf false := fun s => C89_fabs F (.inf s) trivial
  have hfz : ∀ s, MathClass.fabs (.zero s) = .zero false := fun s => C89_fabs F (.zero s) trivial
  have hsp := fun v h s => C91_parity_special F C il v h s
  refine ⟨fun y => ?_, fun x s => ?_, fun x hx => ?_, fun y hyF hz => ?_, fun y hy hp => ⟨fun s hn => ?_, ?_⟩, fun s => ?_,
    fun y hy hp s => ⟨fun hn => ?_, fun hn => ?_⟩, fun s => ?_, fun s => ?_, fun x hx h1 => ?_, fun x hx h1 => ?_, fun s => ?_,
    fun y hy => ?_, fun y hy => ?_, fun y hy hp => ?_, fun y hy hp => ?_, fun x y h0 hy hb hn => ?_⟩
  · simp [pow]
  · by_cases h : x.eq (.num 1) <;> simp [pow, h]
  · have : ¬ x.eq (.num 1) := by
      cases x with
      | num r => simpa using hx
      | zero d => simp [FV.eq, FV.val]
      | _ => simp [FV.eq]
    simp [pow, this, MathClass.isnan]
  · cases y with
    | zero d => exact absurd rfl (hz d)
    | nan => simp [pow, MathClass.isnan]
    | inf d => simp [pow, MathClass.isnan]
    | num r => simp [pow, MathClass.isnan, hyF.1]
  · rw [ParityOf, decide_eq_false hn] at hp
    have h0 : y ≠ 0 := by linarith
    simp [pow, MathClass.isnan, h0, hy, hp, bindRet_ret]
  · have h0 : y ≠ 0 := by linarith
    rw [ParityOf] at hp
    simp [pow, MathClass.isnan, h0, hy, hp, bindRet_ret, MathClass.copysign, MathClass.signbit]
  · have := (hsp (.inf true) rfl s).1
    cases s <;> simp [pow, MathClass.isnan, this, bindRet_ret]
  · rw [ParityOf, decide_eq_true hn] at hp
    have h0 : y ≠ 0 := by linarith
    have h1 : ¬ y < 0 := by linarith
    simp [pow, MathClass.isnan, h0, h1, hp, bindRet_ret]
  · rw [ParityOf, decide_eq_false hn] at hp
    have h0 : y ≠ 0 := by linarith
    have h1 : ¬ y < 0 := by linarith
    simp [pow, MathClass.isnan, h0, h1, hp, bindRet_ret]
  · have := (hsp (.inf false) rfl s).1
    cases s <;> simp [pow, MathClass.isnan, this, bindRet_ret]
  · have : (-1 : ℝ) ≠ 1 := by norm_num
    cases s <;> simp [pow, MathClass.isnan, this]
  · have h2 : x ≠ 1 := by rintro rfl; simp at h1
    have h3 : x ≠ -1 := by rintro rfl; simp at h1
    constructor <;> simp [pow, MathClass.isnan, hx.1, h2, h3, habs x hx, h1]
  · have h2 : x ≠ 1 := by rintro rfl; simp at h1
    have h3 : x ≠ -1 := by rintro rfl; simp at h1
    have h4 : ¬ |x| < 1 := by linarith
    constructor <;> simp [pow, MathClass.isnan, hx.1, h2, h3, habs x hx, h4]
  · constructor <;> simp [pow, MathClass.isnan, hfi s]
  · have h0 : y ≠ 0 := by linarith
    simp [pow, MathClass.isnan, h0, hy]
  · have h0 : y ≠ 0 := by linarith
    have h1 : ¬ y < 0 := by linarith
    simp [pow, MathClass.isnan, h0, h1]
  · have h0 : y ≠ 0 := by linarith
    rw [ParityOf] at hp
    by_cases hn : ∃ m : ℤ, y = ((2 * m + 1 : ℤ) : ℝ)
    · rw [decide_eq_true hn] at hp ⊢
      simp [pow, MathClass.isnan, h0, hy, hp, bindRet_ret, FV.neg]
    · rw [decide_eq_false hn] at hp ⊢
      simp [pow, MathClass.isnan, h0, hy, hp, bindRet_ret]
  · have h0 : y ≠ 0 := by linarith
    have h1 : ¬ y < 0 := by linarith
    rw [ParityOf] at hp
    by_cases hn : ∃ m : ℤ, y = ((2 * m + 1 : ℤ) : ℝ)
    · rw [decide_eq_true hn] at hp ⊢
      simp [pow, MathClass.isnan, h0, h1, hp, bindRet_ret]
    · rw [decide_eq_false hn] at hp ⊢
      simp [pow, MathClass.isnan, h0, h1, hp, bindRet_ret]
  · have h1 : x ≠ 1 := by linarith
    have hx0 : x ≠ 0 := by linarith
    have hi := C87_is_integer F noerr (.num y) hy hb
    have : isInteger F noerr (.num y) = some (.ret false) := by
      rw [hi]
      simpa [isFin, FV.val] using hn
    simp [pow, MathClass.isnan, h1, hx0, hy.1, h0, this, bindRet_ret]

/-- `pow(-0, y)` for a negative odd integer `y` is positive infinity; it should be negative. -/
theorem C100_pow_zero_refuted (L F C : Fmt) (t : FloatTy) (il : FV → Option (Ret ℤ)) (noerr : Bool) (y : ℝ) (hy : y < 0)
    (hp : ParityOf F C il y) (hn : ∃ m : ℤ, y = ((2 * m + 1 : ℤ) : ℝ)) :
    pow L F C t il noerr (.zero true) (.num y) = some (.ret (.inf false)) := by
  rw [ParityOf, decide_eq_true hn] at hp
  have h0 : y ≠ 0 := by linarith
  simp [pow, MathClass.isnan, h0, hy, hp, bindRet_ret, MathClass.copysign, MathClass.signbit]

/-- Powers of numbers greater than one: the relative error is at most `130 + 132 |y ln x|` half epsilons of a type of computation of at
most 64 bits. Missing: results outside the range from `e^-24` to `e^24`, see `C100_pow_large_refuted`. -/
theorem C100_pow_partial (L F C : Fmt) (t : FloatTy) (hs : F.Sub C) (h : TrigFmt L C t) (hp : C.p ≤ 64) (il : FV → Option (Ret ℤ))
    (noerr : Bool) (x y : ℝ) (hx : F.Has (.num x)) (hy : F.Has (.num y)) (h1 : 1 < x) (hy2 : |y| ≤ 2 ^ 40)
    (hb : |y * Real.log x| ≤ 24) : ∃ v, pow L F C t il noerr (.num x) (.num y) = some (.ret (F.cvt v)) ∧ C.Has v ∧ v.isFin ∧
      |v.val - x ^ y| ≤ (130 + 132 * |y * Real.log x|) * (2 : ℝ) ^ (-(C.p : ℤ)) * x ^ y := by
  have hone : (2 : ℝ) ^ (1 - C.emax) ≤ 1 := by
    have := h.big.emax
    calc (2 : ℝ) ^ (1 - C.emax) ≤ (2 : ℝ) ^ (0 : ℤ) := zpow_le_zpow_right₀ (by norm_num) (by omega)
      _ = 1 := zpow_zero _
  have hxC := (cvt_arg hs hx).2
  have hyC := (cvt_arg hs hy).2
  obtain ⟨v, r, e, v1, v2, v3, v4, -, -, v7, v8⟩ := expLog_near (t := t) h hp hxC (by linarith) (nearR_num hyC) (le_refl _) (by norm_num)
    hy2 hb
  have ep : x ^ y = Real.exp (y * Real.log x) := by rw [Real.rpow_def_of_pos (by linarith), mul_comm]
  refine ⟨v, by rw [pow_pos_num hs hx hy (by linarith) (ne_of_gt h1), v1]; rfl, val_has v2 v3 v4, v2.isFin, ?_⟩
  rw [v2.val, ep]
  rw [v7 (le_of_lt h1), mul_zero, add_zero] at v8
  rw [show (130 : ℝ) + 2 * (0 + 66) * |y * Real.log x| = 130 + 132 * |y * Real.log x| by ring] at v8
  exact v8

/-- Powers of numbers less than one: the error has a part proportional to the exponent. Missing: results outside the range from `e^-24`
to `e^24`; a bound which does not depend on the exponent as such, see `C100_pow_near_one_refuted`. -/
theorem C100_pow_small_partial (L F C : Fmt) (t : FloatTy) (hs : F.Sub C) (h : TrigFmt L C t) (hp : C.p ≤ 64) (il : FV → Option (Ret ℤ))
    (noerr : Bool) (x y : ℝ) (hx : F.Has (.num x)) (hy : F.Has (.num y)) (h0 : (2 : ℝ) ^ (1 - C.emax) ≤ x) (h1 : x < 1)
    (hy2 : |y| ≤ 2 ^ 40) (hb : |y * Real.log x| ≤ 24) :
    ∃ v, pow L F C t il noerr (.num x) (.num y) = some (.ret (F.cvt v)) ∧ C.Has v ∧ v.isFin ∧
      |v.val - x ^ y| ≤ (130 + 132 * |y * Real.log x| + 5 * |y|) * (2 : ℝ) ^ (-(C.p : ℤ)) * x ^ y := by
  have hu := u_pos (F := C)
  have hx0 : 0 < x := lt_of_lt_of_le (by positivity) h0
  have hxC := (cvt_arg hs hx).2
  have hyC := (cvt_arg hs hy).2
  obtain ⟨v, r, e, v1, v2, v3, v4, v5, v6, -, v8⟩ := expLog_near (t := t) h hp hxC h0 (nearR_num hyC) (le_refl _) (by norm_num)
    hy2 hb
  have ep : x ^ y = Real.exp (y * Real.log x) := by rw [Real.rpow_def_of_pos hx0, mul_comm]
  refine ⟨v, by rw [pow_pos_num hs hx hy hx0 (ne_of_lt h1), v1]; rfl, val_has v2 v3 v4, v2.isFin, ?_⟩
  rw [v2.val, ep]
  refine le_trans v8 (mul_le_mul_of_nonneg_right (mul_le_mul_of_nonneg_right ?_ (le_of_lt hu)) (le_of_lt (Real.exp_pos _)))
  have : |y| * e ≤ |y| * (1 / 32) := mul_le_mul_of_nonneg_left v6 (abs_nonneg _)
  linarith [abs_nonneg y]

/-- Integral powers of numbers less than -1: sign and absolute value. Missing: results outside the range from `e^-24` to `e^24`. -/
theorem C100_pow_neg_partial (L F C : Fmt) (t : FloatTy) (hs : F.Sub C) (h : TrigFmt L C t) (hp : C.p ≤ 64) (il : FV → Option (Ret ℤ))
    (noerr : Bool) (x : ℝ) (n : ℤ) (hx : F.Has (.num x)) (hy : F.Has (.num (n : ℝ))) (h1 : x < -1) (hn : |n| ≤ 2 ^ 40)
    (ho : ParityOf C C il n) (hb : |n * Real.log (-x)| ≤ 24) :
    ∃ v, pow L F C t il noerr (.num x) (.num (n : ℝ)) = some (.ret (F.cvt v)) ∧ C.Has v ∧ v.isFin ∧
      |v.val - x ^ n| ≤ (130 + 132 * |n * Real.log (-x)|) * (2 : ℝ) ^ (-(C.p : ℤ)) * |x ^ n| := by
  have hone : (2 : ℝ) ^ (1 - C.emax) ≤ 1 := by
    have := h.big.emax
    calc (2 : ℝ) ^ (1 - C.emax) ≤ (2 : ℝ) ^ (0 : ℤ) := zpow_le_zpow_right₀ (by norm_num) (by omega)
      _ = 1 := zpow_zero _
  have hxC := (cvt_arg hs hx).2
  have hyC := (cvt_arg hs hy).2
  have hxC' : C.Has (.num (-x)) := ⟨neg_ne_zero.2 hxC.1, hxC.2.1.neg, by rw [abs_neg]; exact hxC.2.2⟩
  have hn' : |(n : ℝ)| ≤ 2 ^ 40 := by exact_mod_cast hn
  obtain ⟨v, r, e, v1, v2, v3, v4, -, -, v7, v8⟩ := expLog_near (t := t) h hp hxC' (by linarith) (nearR_num hyC) (le_refl _) (by norm_num)
    hn' hb
  rw [v7 (by linarith), mul_zero, add_zero] at v8
  rw [show (130 : ℝ) + 2 * (0 + 66) * |n * Real.log (-x)| = 130 + 132 * |n * Real.log (-x)| by ring] at v8
  have ep : Real.exp (n * Real.log (-x)) = (-x) ^ n := by
    rw [← Real.rpow_intCast, Real.rpow_def_of_pos (by linarith), mul_comm]
  rw [ep] at v8
  have hpos : 0 < (-x) ^ n := by
    have : 0 < -x := by linarith
    positivity
  have hpw := pow_neg_num (L := L) (t := t) (noerr := noerr) hs n hx hy (by linarith) hn ho
  rw [v1] at hpw
  by_cases hm : n % 2 = 1
  · have hodd : Odd n := Int.odd_iff.2 hm
    have ex : x ^ n = -((-x) ^ n) := by
      rw [hodd.neg_zpow, neg_neg]
    refine ⟨v.neg, ?_, val_has v2.neg v3.neg (by rw [abs_neg]; exact v4), v2.neg.isFin, ?_⟩
    · rw [hpw]; simp [hm]
    · rw [v2.neg.val, ex, abs_neg, abs_of_pos hpos, show -r - -(-x) ^ n = -(r - (-x) ^ n) by ring, abs_neg]
      exact v8
  · have heven : Even n := Int.even_iff.2 (by omega)
    have ex : x ^ n = (-x) ^ n := (heven.neg_zpow x).symm
    refine ⟨v, ?_, val_has v2 v3 v4, v2.isFin, ?_⟩
    · rw [hpw]; simp [hm]
    · rw [v2.val, ex, abs_of_pos hpos]
      exact v8

/-- Powers of at least `e^100.5` are less than a tenth of what they should be. -/
theorem C100_pow_large_refuted (L F C : Fmt) (t : FloatTy) (hs : F.Sub C) (h : TrigFmt L C t) (il : FV → Option (Ret ℤ))
    (noerr : Bool) (x y : ℝ) (hx : F.Has (.num x)) (hy : F.Has (.num y)) (h1 : 1 < x) (hy2 : |y| ≤ 2 ^ 40)
    (hb : 100.5 ≤ y * Real.log x) (hb2 : y * Real.log x ≤ 2000) :
    ∃ v, pow L F C t il noerr (.num x) (.num y) = some (.ret (F.cvt v)) ∧ C.Has v ∧ v.isFin ∧ v.val < x ^ y / 10 := by
  have hxC := (cvt_arg hs hx).2
  have hyC := (cvt_arg hs hy).2
  obtain ⟨v, r, v1, v2, v3, v4⟩ := expLog_wrong (t := t) h hxC (le_of_lt h1) (nearR_num hyC) (le_refl _) (by norm_num) hy2 hb hb2
  have ep : x ^ y = Real.exp (y * Real.log x) := by rw [Real.rpow_def_of_pos (by linarith), mul_comm]
  refine ⟨v, by rw [pow_pos_num hs hx hy (by linarith) (ne_of_gt h1), v1]; rfl, v3, v2.isFin, ?_⟩
  rw [v2.val, ep]
  exact v4

/-- The greatest value below one to the power `2^p`, which should be near `1/e`, is less than a fifth: its logarithm is about twice what it
should be (`C96_log_refuted`). -/
theorem C100_pow_near_one_refuted (L C : Fmt) (t : FloatTy) (h : TrigFmt L C t) (hp : C.p ≤ 64) (il : FV → Option (Ret ℤ))
    (noerr : Bool) (hL : C.Sub L) (hf : HasFormat C t) :
    ∃ v, C.Has (.num (1 - (2 : ℝ) ^ (-(C.p : ℤ)))) ∧ C.Has (.num ((2 : ℝ) ^ (C.p : ℤ))) ∧
      pow L C C t il noerr (.num (1 - (2 : ℝ) ^ (-(C.p : ℤ)))) (.num ((2 : ℝ) ^ (C.p : ℤ))) = some (.ret v) ∧ v.isFin ∧ v.val < 1 / 5 ∧
      1 / 3 < (1 - (2 : ℝ) ^ (-(C.p : ℤ))) ^ ((2 : ℝ) ^ (C.p : ℤ)) := by
  have w := h.big
  have hu := u_pos (F := C)
  have hu8 := w.u_small
  have hem := w.emax
  obtain ⟨⟨l, hx, l1, -, l3⟩, -⟩ := C96_log_refuted L C t hL w hf
  change ∃ v, C.Has (.num (1 - C.u)) ∧ C.Has (.num ((2 : ℝ) ^ (C.p : ℤ))) ∧
      pow L C C t il noerr (.num (1 - C.u)) (.num ((2 : ℝ) ^ (C.p : ℤ))) = some (.ret v) ∧ v.isFin ∧ v.val < 1 / 5 ∧
      1 / 3 < (1 - C.u) ^ ((2 : ℝ) ^ (C.p : ℤ))
  change C.Has (.num (1 - C.u)) at hx
  change log L C C t (.num (1 - C.u)) = some l at l1
  change l.val ≤ 19 / 10 * Real.log (1 - C.u) at l3
  have h0 : (2 : ℝ) ^ (1 - C.emax) ≤ 1 - C.u := by
    have : (2 : ℝ) ^ (1 - C.emax) ≤ (2 : ℝ) ^ (-1 : ℤ) := zpow_le_zpow_right₀ (by norm_num) (by omega)
    rw [zpow_neg_one] at this
    linarith
  obtain ⟨l', r, e, m1, m2, m3, -, m5, m6, -, m8⟩ := logC (t := t) h hx h0
  rw [l1] at m1
  obtain rfl := Option.some.inj m1
  rw [m2.val] at l3
  obtain ⟨P, hP⟩ : ∃ P, P = (2 : ℝ) ^ (C.p : ℤ) := ⟨_, rfl⟩
  have hPu : P * C.u = 1 := by
    rw [hP]; change (2 : ℝ) ^ (C.p : ℤ) * (2 : ℝ) ^ (-(C.p : ℤ)) = 1
    rw [← zpow_add₀ (by norm_num), add_neg_cancel, zpow_zero]
  have hP0 : 0 < P := by rw [hP]; positivity
  have hPlt : P < (2 : ℝ) ^ C.emax := by rw [hP]; exact zpow_lt_zpow_right₀ (by norm_num) (by omega)
  have hPC : C.Has (.num P) := by
    refine ⟨ne_of_gt hP0, ?_, by rw [abs_of_pos hP0]; exact hPlt⟩
    rw [hP]
    exact Rep.two_zpow _ (by have := C.emin_le; have := w.p53; omega) (by have := w.p53; omega)
  rw [← hP]
  -- the true logarithm
  have t1 : Real.log (1 - C.u) ≤ -C.u := by
    have := Real.log_le_sub_one_of_pos (show 0 < 1 - C.u by linarith); linarith
  have t2 : -(101 / 100 * C.u) ≤ Real.log (1 - C.u) := by
    have a := Real.one_sub_inv_le_log_of_pos (show 0 < 1 - C.u by linarith)
    have b : (1 - C.u)⁻¹ ≤ 1 + 101 / 100 * C.u := by
      rw [inv_le_iff_one_le_mul₀ (by linarith)]
      nlinarith
    linarith
  have t3 : |Real.log (1 - C.u)| ≤ 101 / 100 * C.u := by rw [abs_le]; constructor <;> linarith
  have r1 : r ≤ -(19 / 10 * C.u) := by linarith
  have r2 : -(4 * C.u) ≤ r := by
    have a := (abs_le.1 m8).1
    have b : 64 * C.u * |Real.log (1 - C.u)| ≤ 64 * C.u * (101 / 100 * C.u) := mul_le_mul_of_nonneg_left t3 (by positivity)
    have c : 64 * C.u * (101 / 100 * C.u) ≤ C.u / 2 := by nlinarith
    linarith
  have z1 : P * r ≤ -(19 / 10) := by
    have := mul_le_mul_of_nonneg_left r1 (le_of_lt hP0)
    linarith [show P * -(19 / 10 * C.u) = -(19 / 10) * (P * C.u) by ring, hPu]
  have z2 : -4 ≤ P * r := by
    have := mul_le_mul_of_nonneg_left r2 (le_of_lt hP0)
    linarith [show P * -(4 * C.u) = -4 * (P * C.u) by ring, hPu]
  have zrep : Rep C.p C.emin (P * r) := by
    obtain ⟨m, q, q1, q2, q3⟩ := m3
    refine ⟨m, q + C.p, by omega, q2, ?_⟩
    rw [q3, hP, zpow_add₀ (by norm_num)]
    ring
  have hM : (4 : ℝ) < (2 : ℝ) ^ C.emax := by
    calc (4 : ℝ) < (2 : ℝ) ^ (3 : ℤ) := by norm_num
      _ ≤ _ := zpow_le_zpow_right₀ (by norm_num) (by omega)
  have hz := mul_val (F := C) (Val.num (ne_of_gt hP0)) m2 (by
    rw [rnd_of_rep zrep, abs_lt]; constructor <;> linarith)
  rw [rnd_of_rep zrep] at hz
  obtain ⟨ev, e1, e2⟩ := expC (t := t) w hf hp hz zrep (by rw [abs_le]; constructor <;> linarith)
  obtain ⟨s, s1, s2, s3⟩ := e2.err
  have hE : Real.exp (P * r) ≤ 4 / 25 := by
    have a : Real.exp (P * r) ≤ Real.exp (-(19 / 10)) := Real.exp_le_exp.2 z1
    have b : Real.exp (-(19 / 10)) ≤ 4 / 25 := by
      rw [Real.exp_neg, inv_le_comm₀ (Real.exp_pos _) (by norm_num)]
      have := Real.sum_le_exp_of_nonneg (show (0 : ℝ) ≤ 19 / 10 by norm_num) 7
      refine le_trans ?_ this
      norm_num [Finset.sum_range_succ, Nat.factorial]
    linarith
  have hE0 := Real.exp_pos (P * r)
  have hs : s < 1 / 5 := by
    have a := (abs_le.1 s3).2
    have b : 128 * C.u * Real.exp (P * r) ≤ 128 * C.u * (4 / 25) := mul_le_mul_of_nonneg_left hE (by positivity)
    linarith
  have hs0 : -1 < s := by
    have a := (abs_le.1 s3).1
    have b : 128 * C.u * Real.exp (P * r) ≤ 128 * C.u * (4 / 25) := mul_le_mul_of_nonneg_left hE (by positivity)
    linarith
  have hcv : C.cvt ev = ev := cvt_of_val s1 s2 (by rw [abs_lt]; constructor <;> linarith)
  refine ⟨ev, hx, hPC, ?_, s1.isFin, by rw [s1.val]; exact hs, ?_⟩
  · rw [pow_pos_num ⟨le_refl _, le_refl _, le_refl _⟩ hx hPC (by linarith) (by linarith)]
    unfold expLog
    rw [l1, Option.bind_some, e1, Option.map_some, hcv]
  · rw [Real.rpow_def_of_pos (by linarith)]
    have a : -(101 / 100) ≤ Real.log (1 - C.u) * P := by
      have := mul_le_mul_of_nonneg_right t2 (le_of_lt hP0)
      linarith [show -(101 / 100 * C.u) * P = -(101 / 100) * (P * C.u) by ring, hPu]
    refine lt_of_lt_of_le ?_ (Real.exp_le_exp.2 a)
    rw [Real.exp_neg, lt_inv_comm₀ (by norm_num) (Real.exp_pos _)]
    have h1 : Real.exp (101 / 100) = Real.exp 1 * Real.exp (1 / 100) := by rw [← Real.exp_add]; norm_num
    have h2 := Real.exp_one_lt_d9
    have h3 := Real.exp_bound_div_one_sub_of_interval (show (0 : ℝ) ≤ 1 / 100 by norm_num) (by norm_num)
    have h4 := Real.exp_pos (1 / 100)
    rw [h1]
    norm_num at h3 ⊢
    nlinarith

/-- The parity of numbers of absolute value at least 2 is determined correctly with the library's own `ilogb`. -/
theorem C100_parity (L C : Fmt) (t : FloatTy) (h : TrigFmt L C t) (ho : Ordinary C) (noerr : Bool) (i0 inan : ℤ) (y : ℝ)
    (hy : C.Has (.num y)) (h1 : 2 ≤ |y|) (h2 : |y| < (2 : ℝ) ^ (C.emax - 1)) :
    ParityOf C C (ilogb C C noerr (ownLog2 L C t) i0 inan) y := by
  have hem := h.big.emax
  have h22 : |(2 : ℝ)| = 2 := abs_of_pos (by norm_num)
  have h2C : C.Has (.num 2) := by
    refine ⟨by norm_num, by exact_mod_cast C.rep_int 2 (by
      have : (2 : ℤ) ^ 1 ≤ 2 ^ C.p := pow_le_pow_right₀ (by norm_num) (by have := h.big.p53; omega)
      rw [abs_of_pos (by norm_num)]; linarith), ?_⟩
    rw [h22]
    calc (2 : ℝ) = (2 : ℝ) ^ (1 : ℤ) := by norm_num
      _ < _ := zpow_lt_zpow_right₀ (by norm_num) (by omega)
  have ky : IsExp (Int.log 2 |y|) y := abs_lt_two_zpow_log hy.1
  have k2 : IsExp 1 (2 : ℝ) := by unfold IsExp; rw [h22]; norm_num
  have e2 := C98_ilogb L C t h ho noerr i0 inan 2 h2C 1 k2 (by rw [h22]) (by rw [h22]; linarith [h22])
  rw [h22] at e2
  exact (C91_parity_partial C C ⟨le_refl _, le_refl _, le_refl _⟩ _ h2C y hy _ ⟨h.emin, h.emax, hy, h2C, ky, k2, by omega⟩
    (C98_ilogb L C t h ho noerr i0 inan y hy _ ky h1 h2) e2).1

/-- special values of `cbrt` -/
theorem C100_cbrt_special (L F C : Fmt) (t : FloatTy) (il : FV → Option (Ret ℤ)) (noerr s : Bool) :
    cbrt L F C t il noerr .nan = some (.ret .nan) ∧ cbrt L F C t il noerr (.inf s) = some (.ret (.inf s)) ∧
    cbrt L F C t il noerr (.zero s) = some (.ret (.zero s)) := by
  refine ⟨?_, ?_, ?_⟩
  · simp [cbrt, MathClass.isnan]
  · cases s <;> simp [cbrt, MathClass.isnan]
  · cases s <;> simp [cbrt, MathClass.isnan]

namespace MathPower

variable {L F C : Fmt} {t : FloatTy}

/-- `cbrt` is the power of the absolute value with the sign of the argument -/
theorem cbrt_num (hs : F.Sub C) (h : TrigFmt L C t) {il : FV → Option (Ret ℤ)} {noerr : Bool} {x z : ℝ} (hx : F.Has (.num x))
    (hz : const L C .third = .num z) (hzC : C.Has (.num z)) (h1 : |x| ≠ 1) :
    cbrt L F C t il noerr (.num x) =
      (expLog L C t (.num |x|) (.num z)).map fun r => .ret (F.cvt (if x < 0 then (C.cvt r).neg else C.cvt r)) := by
  have hx0 := hx.1
  have hxC := (cvt_arg hs hx).2
  have hp : 0 < |x| := abs_pos.2 hx0
  have hax : C.Has (.num |x|) := ⟨ne_of_gt hp, hxC.2.1.abs, by rw [abs_abs]; exact hxC.2.2⟩
  have hpow := pow_pos_num (L := L) (t := t) (il := il) (noerr := noerr) (⟨le_refl _, le_refl _, le_refl _⟩ : C.Sub C) hax hzC hp h1
  simp only [cbrt, MathClass.isnan, eq_num_num, eq_num_zero, eq_num_inf, hx0, decide_true, Bool.not_true, Bool.false_eq_true, if_false]
  rw [(cvt_arg hs hx).1]
  unfold cbrtImpl
  rw [hz]
  by_cases hlt : x < 0
  · have en : (FV.num x).neg = .num |x| := by rw [abs_of_neg hlt]; rfl
    simp only [lt_num_zero, hlt, if_true]
    rw [en, hpow]
    cases expLog L C t (.num |x|) (.num z) <;> rfl
  · have en : (FV.num x) = .num |x| := by rw [abs_of_nonneg (not_lt.1 hlt)]
    simp only [lt_num_zero, hlt, if_false]
    rw [en, hpow]
    cases expLog L C t (.num |x|) (.num z) <;> rfl

theorem cube_root {x : ℝ} (hx : x ≠ 0) : (if x < 0 then -Real.exp (1 / 3 * Real.log |x|) else Real.exp (1 / 3 * Real.log |x|)) ^ 3 = x := by
  have e : Real.exp (1 / 3 * Real.log |x|) ^ 3 = |x| := by
    rw [← Real.exp_nat_mul]
    push_cast
    rw [show 3 * (1 / 3 * Real.log |x|) = Real.log |x| by ring, Real.exp_log (abs_pos.2 hx)]
  split_ifs with h
  · rw [neg_pow, e, abs_of_neg h]; ring
  · rw [e, abs_of_nonneg (not_lt.1 h)]

end MathPower

/-- The cubic root of a number of absolute value between `2^-100` and `2^100` has a relative error of at most 4096 half epsilons of a
type of computation of at most 64 bits. Missing: other arguments, see `C100_cbrt_refuted`. -/
theorem C100_cbrt_partial (L F C : Fmt) (t : FloatTy) (hs : F.Sub C) (h : TrigFmt L C t) (hp : C.p ≤ 64) (il : FV → Option (Ret ℤ))
    (noerr : Bool) (x : ℝ) (hx : F.Has (.num x)) (h1 : (2 : ℝ) ^ (-100 : ℤ) ≤ |x|) (h2 : |x| ≤ (2 : ℝ) ^ (100 : ℤ)) (h3 : |x| ≠ 1) :
    ∃ v c, cbrt L F C t il noerr (.num x) = some (.ret (F.cvt v)) ∧ C.Has v ∧ v.isFin ∧ c ^ 3 = x ∧
      |v.val - c| ≤ 2 ^ 12 * (2 : ℝ) ^ (-(C.p : ℤ)) * |c| := by
  have hu := u_pos (F := C)
  have hem := h.big.emax
  have hx0 := hx.1
  have hxC := (cvt_arg hs hx).2
  have hpos : 0 < |x| := abs_pos.2 hx0
  have hax : C.Has (.num |x|) := ⟨ne_of_gt hpos, hxC.2.1.abs, by rw [abs_abs]; exact hxC.2.2⟩
  obtain ⟨z, z1, z2, z3, z4⟩ := third_near (t := t) h
  have hlog : |Real.log (|x|)| ≤ 70 := by
    have l2 := Real.log_two_lt_d9
    have a1 := Real.log_le_log hpos h2
    have a2 := Real.log_le_log (by positivity) h1
    rw [Real.log_zpow] at a1 a2
    push_cast at a1 a2
    rw [abs_le]
    constructor <;> linarith
  have hlow : (2 : ℝ) ^ (1 - C.emax) ≤ |x| := le_trans (zpow_le_zpow_right₀ (by norm_num) (by omega)) h1
  have habs : |1 / 3 * Real.log (|x|)| ≤ 70 / 3 := by
    rw [abs_mul, abs_of_pos (by norm_num : (0 : ℝ) < 1 / 3)]; linarith
  obtain ⟨v, r, e, v1, v2, v3, v4, v5, v6, -, v8⟩ := expLog_near (t := t) h hp hax hlow z4 (by norm_num) (le_refl _)
    (by rw [abs_of_pos] <;> norm_num) (by linarith)
  have hc := cvt_of_val v2 v3 v4
  have hE := Real.exp_pos (1 / 3 * Real.log |x|)
  have hK : |r - Real.exp (1 / 3 * Real.log |x|)| ≤ 2 ^ 12 * C.u * Real.exp (1 / 3 * Real.log |x|) := by
    refine le_trans v8 (mul_le_mul_of_nonneg_right (mul_le_mul_of_nonneg_right ?_ (le_of_lt hu)) (le_of_lt hE))
    have h13 : |(1 / 3 : ℝ)| = 1 / 3 := abs_of_pos (by norm_num)
    rw [h13]
    linarith
  have hcb := cbrt_num (il := il) (noerr := noerr) hs h hx z1 z2 h3
  rw [v1] at hcb
  have hcr := cube_root hx0
  by_cases hlt : x < 0
  · rw [if_pos hlt] at hcr
    refine ⟨v.neg, _, ?_, val_has v2.neg v3.neg (by rw [abs_neg]; exact v4), v2.neg.isFin, hcr, ?_⟩
    · rw [hcb]; simp [hlt, hc]
    · rw [v2.neg.val, abs_neg, abs_of_pos hE, show -r - -Real.exp (1 / 3 * Real.log |x|) = -(r - Real.exp (1 / 3 * Real.log |x|)) by ring,
        abs_neg]
      exact hK
  · rw [if_neg hlt] at hcr
    refine ⟨v, _, ?_, val_has v2 v3 v4, v2.isFin, hcr, ?_⟩
    · rw [hcb]; simp [hlt, hc]
    · rw [v2.val, abs_of_pos hE]
      exact hK

/-- The cubic root of any number from `2^436` to `2^1000` is less than a tenth of what it should be. -/
theorem C100_cbrt_refuted (L F C : Fmt) (t : FloatTy) (hs : F.Sub C) (h : TrigFmt L C t) (il : FV → Option (Ret ℤ))
    (noerr : Bool) (x : ℝ) (hx : F.Has (.num x)) (h1 : (2 : ℝ) ^ (436 : ℤ) ≤ x) (h2 : x ≤ (2 : ℝ) ^ (1000 : ℤ)) :
    ∃ v c, cbrt L F C t il noerr (.num x) = some (.ret (F.cvt v)) ∧ C.Has v ∧ v.isFin ∧ c ^ 3 = x ∧ 0 < c ∧ v.val < c / 10 := by
  have hx1 : 1 < x := by
    refine lt_of_lt_of_le ?_ h1
    calc (1 : ℝ) = (2 : ℝ) ^ (0 : ℤ) := (zpow_zero _).symm
      _ < _ := zpow_lt_zpow_right₀ (by norm_num) (by norm_num)
  have hx0 : 0 < x := lt_trans one_pos hx1
  have hxC := (cvt_arg hs hx).2
  obtain ⟨z, z1, z2, z3, z4⟩ := third_near (t := t) h
  have l2 := Real.log_two_lt_d9
  have l3 := Real.log_two_gt_d9
  have a1 := Real.log_le_log hx0 h2
  have a2 := Real.log_le_log (by positivity) h1
  rw [Real.log_zpow] at a1 a2
  push_cast at a1 a2
  obtain ⟨v, r, v1, v2, v3, v4⟩ := expLog_wrong (t := t) h hxC (le_of_lt hx1) z4 (by norm_num) (le_refl _)
    (by rw [abs_of_pos] <;> norm_num) (by norm_num; linarith) (by linarith)
  have hax : |x| = x := abs_of_pos hx0
  have hcb := cbrt_num (il := il) (noerr := noerr) hs h hx z1 z2 (by rw [hax]; exact ne_of_gt hx1)
  have hcr := cube_root hx.1
  have hlt : ¬ x < 0 := not_lt.2 (le_of_lt hx0)
  rw [hax, v1] at hcb
  rw [hax, if_neg hlt] at hcr
  have hcv : C.cvt v = v := by
    obtain ⟨s, y, y1, y2, y3⟩ := v3.cases v2.isFin
    rw [y1]; exact cvt_mkv y2 y3
  refine ⟨v, _, ?_, v3, v2.isFin, hcr, Real.exp_pos _, ?_⟩
  · rw [hcb]; simp [hlt, hcv]
  · rw [v2.val]; exact v4

/-- `3^5` -/
example (il : FV → Option (Ret ℤ)) : ∃ v, pow extended double double .double il true (.num 3) (.num 5) = some (.ret (double.cvt v)) ∧
    double.Has v ∧ v.isFin ∧ |v.val - 3 ^ (5 : ℝ)| ≤ (130 + 132 * |5 * Real.log 3|) * (2 : ℝ) ^ (-((double).p : ℤ)) * 3 ^ (5 : ℝ) := by
  have hl : Real.log 3 ≤ 2 := by
    have := Real.log_le_sub_one_of_pos (show (0 : ℝ) < 3 by norm_num); linarith
  have hl0 : 0 ≤ Real.log 3 := Real.log_nonneg (by norm_num)
  refine C100_pow_partial extended double double .double ⟨le_refl _, le_refl _, le_refl _⟩ trigFmt_double (by decide) il true 3 5
    (by exact_mod_cast has_int double 3 (by norm_num) (by decide)) (by exact_mod_cast has_int double 5 (by norm_num) (by decide))
    (by norm_num) ?_ ?_
  · rw [abs_of_pos] <;> norm_num
  · rw [abs_of_nonneg (by linarith)]; linarith

/-- `(-3)^5`, computed by the library alone -/
example : ∃ v, pow extended double double .double (ilogb double double true (ownLog2 extended double .double) 0 0) true (.num (-3))
    (.num ((5 : ℤ) : ℝ)) = some (.ret (double.cvt v)) ∧ double.Has v ∧ v.isFin ∧
    |v.val - (-3) ^ (5 : ℤ)| ≤ (130 + 132 * |((5 : ℤ) : ℝ) * Real.log (-(-3))|) * (2 : ℝ) ^ (-((double).p : ℤ)) * |(-3) ^ (5 : ℤ)| := by
  have hl : Real.log 3 ≤ 2 := by
    have := Real.log_le_sub_one_of_pos (show (0 : ℝ) < 3 by norm_num); linarith
  have hl0 : 0 ≤ Real.log 3 := Real.log_nonneg (by norm_num)
  have h5 := has_int double 5 (by norm_num) (by decide)
  refine C100_pow_neg_partial extended double double .double ⟨le_refl _, le_refl _, le_refl _⟩ trigFmt_double (by decide) _ true (-3) 5
    (by exact_mod_cast has_int double (-3) (by norm_num) (by decide)) h5 (by norm_num) (by norm_num)
    (C100_parity _ _ _ trigFmt_double ordinary_double true 0 0 _ h5 ?_ ?_) ?_
  · push_cast; rw [abs_of_pos] <;> norm_num
  · push_cast
    rw [abs_of_pos (by norm_num)]
    calc (5 : ℝ) < (2 : ℝ) ^ (3 : ℤ) := by norm_num
      _ ≤ _ := zpow_le_zpow_right₀ (by norm_num) (by decide)
  · rw [neg_neg]
    push_cast
    rw [abs_of_nonneg (by linarith)]; linarith

/-- the cubic root of -27 -/
example (il : FV → Option (Ret ℤ)) : ∃ v c, cbrt extended float double .double il true (.num (-27)) = some (.ret (float.cvt v)) ∧
    double.Has v ∧ v.isFin ∧ c ^ 3 = -27 ∧ |v.val - c| ≤ 2 ^ 12 * (2 : ℝ) ^ (-((double).p : ℤ)) * |c| := by
  have h27 : |(-27 : ℝ)| = 27 := by rw [abs_neg, abs_of_pos] <;> norm_num
  refine C100_cbrt_partial extended float double .double (by simp [Fmt.Sub, float, double, ieee]) trigFmt_double (by decide) il true (-27)
    (by exact_mod_cast has_int float (-27) (by norm_num) (by decide)) ?_ ?_ ?_ <;> rw [h27] <;> norm_num

/-- the cubic root of `2^600` -/
example (il : FV → Option (Ret ℤ)) : ∃ v c, cbrt extended double double .double il true (.num ((2 : ℝ) ^ (600 : ℤ))) =
    some (.ret (double.cvt v)) ∧ double.Has v ∧ v.isFin ∧ c ^ 3 = (2 : ℝ) ^ (600 : ℤ) ∧ 0 < c ∧ v.val < c / 10 := by
  refine C100_cbrt_refuted extended double double .double ⟨le_refl _, le_refl _, le_refl _⟩ trigFmt_double il true _ ?_
    (zpow_le_zpow_right₀ (by norm_num) (by norm_num)) (zpow_le_zpow_right₀ (by norm_num) (by norm_num))
  refine ⟨by positivity, Rep.two_zpow _ (by decide) (by decide), ?_⟩
  rw [abs_of_pos (by positivity)]
  exact zpow_lt_zpow_right₀ (by norm_num) (by decide)

end Sprout
