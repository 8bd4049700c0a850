import Verif.Proofs.MathTrig

/-! # C97: trigonometric functions -/

namespace Sprout

open Classical FV Fmt MathTables MathConst MathMod MathTrig MathRound

/-- the function `il` returns the exponents of the numbers of absolute value from 6 to `b` -/
def LogbUpTo (C : Fmt) (il : FV → Option (Ret ℤ)) (b : ℝ) : Prop :=
  ∀ z k, C.Has (.num z) → 6 ≤ |z| → |z| ≤ b → IsExp k z → il (.num |z|) = some (.ret k)

/-- what is assumed of the formats: those of `double`, `long double` and quadruple precision -/
structure TrigFmt (L C : Fmt) (t : FloatTy) : Prop where
  big : C.Big
  sub : C.Sub L
  tbl : HasFormat C t
  emin : C.emin ≤ 1 - C.emax
  emax : C.emax < 2 ^ 30

namespace MathTrig

variable {L F C : Fmt} {t : FloatTy} {il : FV → Option (Ret ℤ)}

theorem const_near (h : TrigFmt L C t) (c : Const) : ∃ r, const L C c = .num r ∧ C.Has (.num r) ∧
    |r - c.real| ≤ 3 * C.u * c.real + C.u / 100 := by
  obtain ⟨r, h1, h2, h3⟩ := C95_constants L C h.sub (by have := h.big.p53; omega) c
  refine ⟨r, h1, h2, le_trans h3 ?_⟩
  have hL : (2 : ℝ) ^ (-(L.p : ℤ)) ≤ C.u := by
    unfold u
    exact zpow_le_zpow_right₀ (by norm_num) (by have := h.sub.1; omega)
  have hc : 0 ≤ c.real := by
    have h4 := lit_near c
    obtain ⟨l1, -⟩ := lit_range c
    have l1' : (1 / 4 : ℝ) ≤ c.lit := by
      have := (Rat.cast_le (K := ℝ)).2 l1
      push_cast at this
      exact this
    have := (abs_le.1 h4).2
    have h5 : (1 / 10 ^ 110 : ℝ) ≤ 1 / 8 := by norm_num
    linarith
  have hu : (2 : ℝ) ^ (-(C.p : ℤ)) = C.u := rfl
  have h6 : (1 / 10 ^ 109 : ℝ) ≤ C.u / 100 := by
    have := h.big.u_ge
    have h7 : (1 / 10 ^ 109 : ℝ) ≤ (2 : ℝ) ^ (-113 : ℤ) / 100 := by norm_num
    exact le_trans h7 (div_le_div_of_nonneg_right this (by norm_num))
  rw [hu]
  have := mul_le_mul_of_nonneg_right hL hc
  linarith

theorem twoPi_near (h : TrigFmt L C t) : ∃ z, const L C .twoPi = .num z ∧ C.Has (.num z) ∧ |z - 2 * Real.pi| ≤ 20 * C.u ∧
    157 / 25 ≤ z ∧ z ≤ 63 / 10 := by
  obtain ⟨z, h1, h2, h3⟩ := const_near h .twoPi
  have e : Const.twoPi.real = 2 * Real.pi := rfl
  rw [e] at h3
  have p1 := Real.pi_gt_d4
  have p2 := Real.pi_lt_d4
  have hu := u_pos (F := C)
  have hu8 := h.big.u_small
  have h4 : |z - 2 * Real.pi| ≤ 20 * C.u := by nlinarith
  have h5 := abs_le.1 h4
  exact ⟨z, h1, h2, h4, by linarith [h5.1], by linarith [h5.2]⟩

theorem halfPi_near (h : TrigFmt L C t) : ∃ z, const L C .halfPi = .num z ∧ C.Has (.num z) ∧ |z - Real.pi / 2| ≤ 5 * C.u ∧
    157 / 100 ≤ z ∧ z ≤ 158 / 100 := by
  obtain ⟨z, h1, h2, h3⟩ := const_near h .halfPi
  have e : Const.halfPi.real = Real.pi / 2 := rfl
  rw [e] at h3
  have p1 := Real.pi_gt_d4
  have p2 := Real.pi_lt_d4
  have hu := u_pos (F := C)
  have hu8 := h.big.u_small
  have h4 : |z - Real.pi / 2| ≤ 5 * C.u := by nlinarith
  have h5 := abs_le.1 h4
  exact ⟨z, h1, h2, h4, by linarith [h5.1], by linarith [h5.2]⟩

/-- the reduction -/
theorem fmod_red (h : TrigFmt L C t) {x z : ℝ} (hx : C.Has (.num x)) (hil : LogbUpTo C il (|x| + 8)) (hz : C.Has (.num z))
    (z1 : 157 / 25 ≤ z) (z2 : z ≤ 63 / 10) : ∃ v y, fmod C C il (.num x) (.num z) = some (.ret v) ∧ Val v y ∧ IsRem y x z := by
  have hz' : |z| = z := abs_of_nonneg (by linarith)
  have hx0 := hx.1
  by_cases hlt : |x| < |z|
  · refine ⟨.num x, x, ?_, Val.num hx0, ⟨0, by simp⟩, hlt, mul_self_nonneg _⟩
    rw [fmod_num ⟨le_refl _, le_refl _, le_refl _⟩ hx hz]
    unfold fmodImpl
    simp only [abs_eq x hx0, abs_eq z hz.1, lt_mkv]
    rw [if_pos hlt, bindRet_ret, cvt_num hx.2.1 hx.2.2 hx0]
  · have kx : IsExp (Int.log 2 |x|) x := abs_lt_two_zpow_log hx0
    have kz : IsExp (Int.log 2 |z|) z := abs_lt_two_zpow_log hz.1
    have hzk : -C.emax < Int.log 2 |z| := by
      have h2 := kz.2
      have : (2 : ℝ) ^ (0 : ℤ) < (2 : ℝ) ^ (Int.log 2 |z| + 1) := by
        refine lt_of_le_of_lt ?_ h2
        rw [zpow_zero, hz']; linarith
      have := (zpow_lt_zpow_iff_right₀ (by norm_num : (1 : ℝ) < 2)).1 this
      have := h.big.emax
      omega
    obtain ⟨v, v1, v2, v3, v4, -⟩ := C91_fmod_partial C C ⟨le_refl _, le_refl _, le_refl _⟩ il x z hx hz _ _
      ⟨h.emin, h.emax, hx, hz, kx, kz, hzk⟩ (hil x _ hx (by rw [hz'] at hlt; linarith) (by linarith) kx)
      (hil z _ hz (by rw [hz']; linarith) (by rw [hz']; linarith [abs_nonneg x]) kz)
    exact ⟨v, v.val, v1, ⟨v.sgn, v2.eq_mkv v3⟩, v4⟩

/-- the error of the reduction -/
theorem cos_red {x y z δ : ℝ} (h : IsRem y x z) (hz : |z - 2 * Real.pi| ≤ δ) (h1 : 6 ≤ z) :
    |Real.cos x - Real.cos y| ≤ (|x| / 6 + 1) * δ := by
  obtain ⟨⟨q, hq⟩, h2, -⟩ := h
  have e : Real.cos x = Real.cos (y + q * (z - 2 * Real.pi)) := by
    rw [← Real.cos_add_int_mul_two_pi (y + q * (z - 2 * Real.pi)) q, hq]
    congr 1
    ring
  rw [e]
  refine le_trans (cos_diff _ _) ?_
  rw [add_sub_cancel_left, abs_mul]
  have hz0 : 0 < z := by linarith
  have h3 : |(q : ℝ)| * z ≤ |x| + z := by
    have : |(q : ℝ) * z| ≤ |x| + |y| := by
      rw [show (q : ℝ) * z = x - y by linarith]
      exact abs_sub _ _
    rw [abs_mul, abs_of_pos hz0] at this
    rw [abs_of_pos hz0] at h2
    linarith
  have h4 : |(q : ℝ)| ≤ |x| / 6 + 1 := by
    by_contra hc
    rw [not_le] at hc
    have h5 : (|x| / 6 + 1) * z < |(q : ℝ)| * z := mul_lt_mul_of_pos_right hc hz0
    have h6 : |x| / 6 * 6 ≤ |x| / 6 * z := mul_le_mul_of_nonneg_left h1 (by positivity)
    linarith
  exact mul_le_mul h4 hz (abs_nonneg _) (by positivity)

theorem cosImpl_near (h : TrigFmt L C t) {x : ℝ} (hx : C.Has (.num x)) (hil : LogbUpTo C il (|x| + 8)) :
    ∃ v r, cosImpl L C t il (.num x) = some (.ret v) ∧ Val v r ∧ Rep C.p C.emin r ∧
      |r - Real.cos x| ≤ (3850 + 4 * |x|) * C.u ∧ |r| ≤ 400 ∧
      ∃ y z, const L C .twoPi = .num z ∧ C.Has (.num z) ∧ IsRem y x z ∧ |r - Real.cos y| ≤ 3824 * C.u := by
  obtain ⟨z, z1, z2, z3, z4, z5⟩ := twoPi_near h
  obtain ⟨v, y, v1, v2, v3⟩ := fmod_red h hx hil z2 z4 z5
  have hy : |y| ≤ 63 / 10 := by
    have := v3.2.1
    rw [abs_of_nonneg (show 0 ≤ z by linarith)] at this
    linarith
  obtain ⟨q, q1, r, r1, r2, r3, r4⟩ := cosRed h.big h.tbl v2 hy
  refine ⟨_, r, ?_, r1, r2, ?_, r4, y, z, z1, z2, v3, r3⟩
  · unfold cosImpl
    rw [z1, v1, bindRet_ret, q1]
    rfl
  · have h1 := cos_red v3 z3 (by linarith)
    have h2 := abs_add_le (r - Real.cos y) (Real.cos y - Real.cos x)
    rw [sub_add_sub_cancel, abs_sub_comm (Real.cos y)] at h2
    have hu := u_pos (F := C)
    have := abs_nonneg x
    nlinarith

theorem has_400 (h : TrigFmt L C t) {v : FV} {r : ℝ} (hv : Val v r) (hr : Rep C.p C.emin r) (hb : |r| ≤ 400) : C.Has v := by
  refine MathExp.val_has hv hr (lt_of_le_of_lt (show |r| ≤ (2 : ℝ) ^ (C.emax - 1) by
    have := MathLog.big_max h.big; linarith) ?_)
  exact zpow_lt_zpow_right₀ (by norm_num) (by omega)

theorem cos_num (hs : F.Sub C) {x : ℝ} (hx : F.Has (.num x)) :
    cos L F C t il (.num x) = bindRet (cosImpl L C t il (.num x)) fun r => some (.ret (F.cvt r)) := by
  have h0 := hx.1
  unfold cos
  simp only [MathClass.isnan, eq_num_num, eq_num_zero, eq_num_inf, h0, decide_true, Bool.not_true, Bool.false_eq_true, if_false,
    or_self]
  rw [cvt_num (hs.rep hx.2.1) (hs.lt hx.2.2) h0]

theorem sin_num (hs : F.Sub C) {x : ℝ} (hx : F.Has (.num x)) :
    sin L F C t il (.num x) = bindRet (sinImpl L C t il (.num x)) fun r => some (.ret (F.cvt r)) := by
  have h0 := hx.1
  unfold sin
  simp only [MathClass.isnan, eq_num_num, eq_num_zero, eq_num_inf, h0, decide_true, Bool.not_true, Bool.false_eq_true, if_false,
    or_self]
  rw [cvt_num (hs.rep hx.2.1) (hs.lt hx.2.2) h0]

theorem tan_num (hs : F.Sub C) {x : ℝ} (hx : F.Has (.num x)) :
    tan L F C t il (.num x) = bindRet (tanImpl L C t il (.num x)) fun r => some (.ret (F.cvt r)) := by
  have h0 := hx.1
  unfold tan
  simp only [MathClass.isnan, eq_num_num, eq_num_zero, eq_num_inf, h0, decide_true, Bool.not_true, Bool.false_eq_true, if_false,
    or_self]
  rw [cvt_num (hs.rep hx.2.1) (hs.lt hx.2.2) h0]

theorem cvt_of_val {v : FV} {r : ℝ} (hv : Val v r) (hr : Rep C.p C.emin r) (hb : |r| < (2 : ℝ) ^ C.emax) : C.cvt v = v := by
  obtain ⟨s, rfl⟩ := hv
  exact cvt_mkv hr hb

/-- the cosine in the type of computation, also of zero -/
theorem cosC_near (h : TrigFmt L C t) {v : FV} {x : ℝ} (hv : Val v x) (hr : Rep C.p C.emin x) (hb : |x| < (2 : ℝ) ^ C.emax)
    (hil : LogbUpTo C il (|x| + 8)) : ∃ c r, cos L C C t il v = some (.ret c) ∧ Val c r ∧ Rep C.p C.emin r ∧
      |r - Real.cos x| ≤ (3850 + 4 * |x|) * C.u ∧ |r| ≤ 400 := by
  have hu := u_pos (F := C)
  by_cases h0 : x = 0
  · subst h0
    obtain ⟨s, rfl⟩ := hv
    refine ⟨.num 1, 1, ?_, Val.num one_ne_zero, C.rep_one, ?_, by norm_num⟩
    · rw [mkv_zero]
      cases s <;> simp [cos, MathClass.isnan]
    · rw [Real.cos_zero, sub_self, abs_zero]
      positivity
  · rw [hv.eq_num h0]
    have hx : C.Has (.num x) := ⟨h0, hr, hb⟩
    obtain ⟨c, r, c1, c2, c3, c4, c5, -⟩ := cosImpl_near h hx hil
    refine ⟨c, r, ?_, c2, c3, c4, c5⟩
    rw [cos_num ⟨le_refl _, le_refl _, le_refl _⟩ hx, c1, bindRet_ret, cvt_of_val c2 c3]
    have hM := MathLog.big_max h.big
    have : (2 : ℝ) ^ (C.emax - 1) < (2 : ℝ) ^ C.emax := zpow_lt_zpow_right₀ (by norm_num) (by omega)
    linarith

theorem sinImpl_near (h : TrigFmt L C t) {x : ℝ} (hx : C.Has (.num x)) (hb : |x| ≤ (2 : ℝ) ^ (C.emax - 2))
    (hil : LogbUpTo C il (2 * |x| + 16)) :
    ∃ v r, sinImpl L C t il (.num x) = some (.ret v) ∧ Val v r ∧ Rep C.p C.emin r ∧
      |r - Real.sin x| ≤ (3900 + 6 * |x|) * C.u ∧ |r| ≤ 400 := by
  obtain ⟨z, z1, z2, z3, z4, z5⟩ := halfPi_near h
  have hu := u_pos (F := C)
  have hu8 := h.big.u_small
  have hM := MathLog.big_max h.big
  have hx0 := abs_nonneg x
  have e2 : (2 : ℝ) ^ (C.emax - 1) = 2 * (2 : ℝ) ^ (C.emax - 2) := by
    rw [show C.emax - 1 = 1 + (C.emax - 2) by ring, zpow_add₀ (by norm_num), zpow_one]
  have hxz : |x + z| ≤ |x| + 79 / 50 := by
    have := abs_add_le x z
    rw [abs_of_nonneg (show 0 ≤ z by linarith)] at this
    linarith
  have hov : |x + z| ≤ (2 : ℝ) ^ (C.emax - 1) := by linarith
  have hv := add_val (F := C) (Val.num hx.1) (Val.num z2.1) (rnd_lt_emax hov)
  have herr := rnd_add_rel hx.2.1 z2.2.1
  obtain ⟨y, hy⟩ : ∃ y, y = C.rnd (x + z) := ⟨_, rfl⟩
  have hyr : Rep C.p C.emin y := by rw [hy]; exact C.rnd_rep _
  have hyb := rnd_lt_emax hov
  rw [← hy] at hv herr hyb
  have hyx : |y - (x + z)| ≤ C.u * (|x| + 79 / 50) := le_trans herr (mul_le_mul_of_nonneg_left hxz (le_of_lt hu))
  have hux : C.u * (|x| + 79 / 50) ≤ 1 / 1000 * (|x| + 79 / 50) := mul_le_mul_of_nonneg_right (by linarith) (by linarith)
  have hya : |y| ≤ |x| + 79 / 50 + 1 / 1000 * (|x| + 79 / 50) := by
    have := abs_add_le (y - (x + z)) (x + z)
    rw [sub_add_cancel] at this
    linarith
  obtain ⟨c, r, c1, c2, c3, c4, c5⟩ := cosC_near h hv hyr hyb (il := il) (fun z k a b c d => hil z k a b (by linarith) d)
  refine ⟨c.neg, -r, ?_, c2.neg, c3.neg, ?_, by rwa [abs_neg]⟩
  · unfold sinImpl
    rw [z1, c1, bindRet_ret]
  · have h1 := cos_diff y (x + Real.pi / 2)
    rw [Real.cos_add_pi_div_two] at h1
    have h2 := abs_add_le (y - (x + z)) (z - Real.pi / 2)
    rw [show y - (x + z) + (z - Real.pi / 2) = y - (x + Real.pi / 2) by ring] at h2
    have h3 := abs_add_le (r - Real.cos y) (Real.cos y - -Real.sin x)
    rw [show r - Real.cos y + (Real.cos y - -Real.sin x) = -(-r - Real.sin x) by ring, abs_neg] at h3
    have h4 := mul_le_mul_of_nonneg_right hya (le_of_lt hu)
    nlinarith

/-- the sine in the type of computation -/
theorem sinC_near (h : TrigFmt L C t) {x : ℝ} (hx : C.Has (.num x)) (hb : |x| ≤ (2 : ℝ) ^ (C.emax - 2))
    (hil : LogbUpTo C il (2 * |x| + 16)) : ∃ s r, sin L C C t il (.num x) = some (.ret s) ∧ Val s r ∧ Rep C.p C.emin r ∧
      |r - Real.sin x| ≤ (3900 + 6 * |x|) * C.u ∧ |r| ≤ 400 := by
  obtain ⟨c, r, c1, c2, c3, c4, c5⟩ := sinImpl_near h hx hb hil
  refine ⟨c, r, ?_, c2, c3, c4, c5⟩
  rw [sin_num ⟨le_refl _, le_refl _, le_refl _⟩ hx, c1, bindRet_ret, cvt_of_val c2 c3]
  have hM := MathLog.big_max h.big
  have : (2 : ℝ) ^ (C.emax - 1) < (2 : ℝ) ^ C.emax := zpow_lt_zpow_right₀ (by norm_num) (by omega)
  linarith

/-- the error of a quotient -/
theorem quot_near {s c s' c' E : ℝ} (hs : |s| ≤ 1) (hc1 : |c| ≤ 1) (h1 : |s' - s| ≤ E) (h2 : |c' - c| ≤ E) (hc : 2 * E ≤ |c|)
    (hc0 : c ≠ 0) : c' ≠ 0 ∧ |s' / c' - s / c| ≤ 4 * E / c ^ 2 ∧ |c| ≤ 2 * |c'| := by
  have hE : 0 ≤ E := le_trans (abs_nonneg _) h1
  have hcp : 0 < |c| := abs_pos.2 hc0
  have h3 : |c| ≤ 2 * |c'| := by
    have := abs_add_le (c - c') c'
    rw [sub_add_cancel, abs_sub_comm] at this
    linarith
  have hc' : c' ≠ 0 := by
    intro h
    rw [h, abs_zero] at h3
    linarith
  refine ⟨hc', ?_, h3⟩
  have e : s' / c' - s / c = ((s' - s) * c - s * (c' - c)) / (c' * c) := by field_simp; ring
  rw [e, abs_div, abs_mul]
  have h4 : |(s' - s) * c - s * (c' - c)| ≤ 2 * E := by
    refine le_trans (abs_sub _ _) ?_
    rw [abs_mul, abs_mul]
    have i1 : |s' - s| * |c| ≤ E * 1 := mul_le_mul h1 hc1 (abs_nonneg _) hE
    have i2 : |s| * |c' - c| ≤ 1 * E := mul_le_mul hs h2 (abs_nonneg _) (by norm_num)
    linarith
  have hcp' : 0 < |c'| := abs_pos.2 hc'
  rw [div_le_div_iff₀ (by positivity) (by positivity)]
  have h5 : |c| ^ 2 ≤ 2 * (|c'| * |c|) := by nlinarith
  rw [sq_abs] at h5
  have h6 : |(s' - s) * c - s * (c' - c)| * c ^ 2 ≤ 2 * E * c ^ 2 := mul_le_mul_of_nonneg_right h4 (sq_nonneg _)
  have h7 : 2 * E * c ^ 2 ≤ 2 * E * (2 * (|c'| * |c|)) := mul_le_mul_of_nonneg_left h5 (by linarith)
  linarith

end MathTrig

/-- special values -/
theorem C97_special (L F C : Fmt) (t : FloatTy) (il : FV → Option (Ret ℤ)) (s : Bool) :
    cos L F C t il .nan = some (.ret .nan) ∧ cos L F C t il (.inf s) = some (.ret .nan) ∧
    cos L F C t il (.zero s) = some (.ret (.num 1)) ∧ sin L F C t il .nan = some (.ret .nan) ∧
    sin L F C t il (.inf s) = some (.ret .nan) ∧ sin L F C t il (.zero s) = some (.ret (.zero s)) ∧
    tan L F C t il .nan = some (.ret .nan) ∧ tan L F C t il (.inf s) = some (.ret .nan) ∧
    tan L F C t il (.zero s) = some (.ret (.zero s)) := by
  cases s <;> simp [cos, sin, tan, MathClass.isnan]

/-- The cosine has an absolute error of at most `3850 + 4 |x|` half epsilons of the type of computation. Missing: accuracy for
large arguments, see `C97_cos_refuted`. -/
theorem C97_cos_partial (L F C : Fmt) (t : FloatTy) (hs : F.Sub C) (h : TrigFmt L C t) (il : FV → Option (Ret ℤ)) (x : ℝ)
    (hx : F.Has (.num x)) (hil : LogbUpTo C il (|x| + 8)) : ∃ v, cos L F C t il (.num x) = some (.ret (F.cvt v)) ∧ C.Has v ∧
      v.isFin ∧ |v.val - Real.cos x| ≤ (3850 + 4 * |x|) * (2 : ℝ) ^ (-(C.p : ℤ)) := by
  obtain ⟨v, r, h1, h2, h3, h4, h5, -⟩ := cosImpl_near (L := L) h ⟨hx.1, hs.rep hx.2.1, hs.lt hx.2.2⟩ hil
  refine ⟨v, ?_, has_400 h h2 h3 h5, h2.isFin, ?_⟩
  · rw [cos_num hs hx, h1, bindRet_ret]
  · rw [h2.val]; exact h4

/-- The sine has an absolute error of at most `3900 + 6 |x|` half epsilons of the type of computation. Missing: accuracy for large
arguments, and relative accuracy near zero, see `C97_sin_refuted`. -/
theorem C97_sin_partial (L F C : Fmt) (t : FloatTy) (hs : F.Sub C) (h : TrigFmt L C t) (il : FV → Option (Ret ℤ)) (x : ℝ)
    (hx : F.Has (.num x)) (hb : |x| ≤ (2 : ℝ) ^ (C.emax - 2)) (hil : LogbUpTo C il (2 * |x| + 16)) :
    ∃ v, sin L F C t il (.num x) = some (.ret (F.cvt v)) ∧ C.Has v ∧
      v.isFin ∧ |v.val - Real.sin x| ≤ (3900 + 6 * |x|) * (2 : ℝ) ^ (-(C.p : ℤ)) := by
  obtain ⟨v, r, h1, h2, h3, h4, h5⟩ := sinImpl_near (L := L) h ⟨hx.1, hs.rep hx.2.1, hs.lt hx.2.2⟩ hb hil
  refine ⟨v, ?_, has_400 h h2 h3 h5, h2.isFin, ?_⟩
  · rw [sin_num hs hx, h1, bindRet_ret]
  · rw [h2.val]; exact h4

/-- The tangent has an absolute error of at most `5 E / cos x ^ 2`, where `E` is the error of the sine, if `E` is not greater than
half the cosine. Missing: accuracy for large arguments and near the poles and zeros. -/
theorem C97_tan_partial (L F C : Fmt) (t : FloatTy) (hs : F.Sub C) (h : TrigFmt L C t) (il : FV → Option (Ret ℤ)) (x : ℝ)
    (hx : F.Has (.num x)) (hb : |x| ≤ (2 : ℝ) ^ (C.emax - 2)) (hil : LogbUpTo C il (2 * |x| + 16))
    (hc : 2 * ((3900 + 6 * |x|) * (2 : ℝ) ^ (-(C.p : ℤ))) ≤ |Real.cos x|) :
    ∃ v, tan L F C t il (.num x) = some (.ret (F.cvt v)) ∧ C.Has v ∧ v.isFin ∧
      |v.val - Real.tan x| ≤ 5 * ((3900 + 6 * |x|) * (2 : ℝ) ^ (-(C.p : ℤ))) / Real.cos x ^ 2 := by
  have hu := u_pos (F := C)
  have hu8 := h.big.u_small
  have huE : (2 : ℝ) ^ (-(C.p : ℤ)) = C.u := rfl
  rw [huE] at hc ⊢
  have hxC : C.Has (.num x) := ⟨hx.1, hs.rep hx.2.1, hs.lt hx.2.2⟩
  have hx0 := abs_nonneg x
  obtain ⟨s, s', s1, s2, s3, s4, s5⟩ := sinC_near (L := L) h hxC hb hil
  obtain ⟨c, c', c1, c2, c3, c4, c5⟩ := cosC_near (L := L) (il := il) h (Val.num hxC.1) hxC.2.1 hxC.2.2
    (fun z k a b c d => hil z k a b (by linarith) d)
  obtain ⟨E, hE⟩ : ∃ E, E = (3900 + 6 * |x|) * C.u := ⟨_, rfl⟩
  have hEu : 3900 * C.u ≤ E := by rw [hE]; nlinarith
  have c4' : |c' - Real.cos x| ≤ E := by rw [hE]; nlinarith
  rw [← hE] at hc s4 ⊢
  have hc0 : Real.cos x ≠ 0 := by
    intro h0
    rw [h0, abs_zero] at hc
    linarith
  have hcos1 := Real.abs_cos_le_one x
  have hE2 : E ≤ 1 / 2 := by linarith
  obtain ⟨q1, q2, q3⟩ := quot_near (Real.abs_sin_le_one x) hcos1 s4 c4' hc hc0
  have hcp : 0 < |Real.cos x| := abs_pos.2 hc0
  have hcp' : 0 < |c'| := abs_pos.2 q1
  -- the size of the quotient
  have hs' : |s'| ≤ 3 / 2 := by
    have := abs_add_le (s' - Real.sin x) (Real.sin x)
    rw [sub_add_cancel] at this
    have := Real.abs_sin_le_one x
    linarith
  have hq : |s' / c'| ≤ 3 / |Real.cos x| := by
    rw [abs_div, div_le_div_iff₀ hcp' hcp]
    have := mul_le_mul_of_nonneg_right hs' (abs_nonneg (Real.cos x))
    linarith
  have hq2 : 3 / |Real.cos x| ≤ 1 / C.u := by
    rw [div_le_div_iff₀ hcp hu]
    linarith
  have hmax : |s' / c'| ≤ (2 : ℝ) ^ (C.emax - 1) := by
    refine le_trans hq (le_trans hq2 ?_)
    unfold u
    rw [zpow_neg, one_div, inv_inv]
    exact zpow_le_zpow_right₀ (by norm_num) (by have := h.big.p113; have := h.big.emax; omega)
  have hv := div_val (F := C) s2 c2 q1 (rnd_lt_emax hmax)
  have hη3 : (2 : ℝ) ^ C.emin ≤ C.u := by
    refine le_trans h.big.eta_le (le_trans ?_ h.big.u_ge)
    exact zpow_le_zpow_right₀ (by norm_num) (by norm_num)
  have herr := rnd_err (F := C) (s' / c')
  refine ⟨_, ?_, MathExp.val_has hv (C.rnd_rep _) (rnd_lt_emax hmax), hv.isFin, ?_⟩
  · rw [tan_num hs hx]
    unfold tanImpl
    rw [s1, bindRet_ret, c1, bindRet_ret, bindRet_ret]
  · rw [hv.val, Real.tan_eq_sin_div_cos]
    have h1 := abs_add_le (C.rnd (s' / c') - s' / c') (s' / c' - Real.sin x / Real.cos x)
    rw [sub_add_sub_cancel] at h1
    have hsq : Real.cos x ^ 2 ≤ 1 := by rw [← sq_abs]; nlinarith
    have hsq0 : 0 < Real.cos x ^ 2 := by positivity
    have hsq1 : Real.cos x ^ 2 ≤ |Real.cos x| := by rw [← sq_abs]; nlinarith
    have h2 : 3 / |Real.cos x| ≤ 3 / Real.cos x ^ 2 := div_le_div_of_nonneg_left (by norm_num) hsq0 hsq1
    have h3 : 1 ≤ 1 / Real.cos x ^ 2 := by rw [le_div_iff₀ hsq0]; linarith
    have h4 : C.u * |s' / c'| ≤ C.u * (3 / Real.cos x ^ 2) := mul_le_mul_of_nonneg_left (le_trans hq h2) (le_of_lt hu)
    have h5 : C.u * 1 ≤ C.u * (1 / Real.cos x ^ 2) := mul_le_mul_of_nonneg_left h3 (le_of_lt hu)
    have h6 : 3900 * C.u * (1 / Real.cos x ^ 2) ≤ E * (1 / Real.cos x ^ 2) := mul_le_mul_of_nonneg_right hEu (by positivity)
    have e3 : 3 / Real.cos x ^ 2 = 3 * (1 / Real.cos x ^ 2) := by ring
    have e4 : 5 * E / Real.cos x ^ 2 = 5 * (E * (1 / Real.cos x ^ 2)) := by ring
    have e5 : 4 * E / Real.cos x ^ 2 = 4 * (E * (1 / Real.cos x ^ 2)) := by ring
    have hi : 0 < C.u * (1 / Real.cos x ^ 2) := by positivity
    rw [e3] at h4
    rw [e4]
    rw [e5] at q2
    linarith

namespace MathTrig

variable {L F C : Fmt} {t : FloatTy} {il : FV → Option (Ret ℤ)}

/-- a small number is lost in a sum -/
theorem rnd_absorb {x z : ℝ} (hz : Rep C.p C.emin z) (h1 : 3 / 2 ≤ z) (hx : |x| < C.u) : C.rnd (x + z) = z := by
  have hu4 := u_le (F := C)
  obtain ⟨r, hr⟩ : ∃ r, r = C.rnd (x + z) := ⟨_, rfl⟩
  have hrr : Rep C.p C.emin r := by rw [hr]; exact C.rnd_rep _
  have hn := C.rnd_near (x + z) z hz
  rw [← hr, show z - (x + z) = -x by ring, abs_neg] at hn
  rw [← hr]
  have h2 : |r - z| < 2 * C.u := by
    have := abs_add_le (r - (x + z)) x
    rw [show r - (x + z) + x = r - z by ring] at this
    linarith
  have h3 := (abs_lt.1 h2).1
  have e2 : (2 : ℝ) ^ (1 - (C.p : ℤ)) = 2 * C.u := by
    unfold u
    rw [sub_eq_add_neg, zpow_add₀ (by norm_num), zpow_one]
  have e1 : (2 : ℝ) ^ ((C.p : ℤ) - 1 + (1 - C.p)) = 1 := by rw [show (C.p : ℤ) - 1 + (1 - C.p) = 0 by ring, zpow_zero]
  obtain ⟨m, hm⟩ := hrr.grid' (e := 1 - C.p) (by rw [e1]; linarith)
  obtain ⟨n, hn⟩ := hz.grid' (e := 1 - C.p) (by rw [e1]; linarith)
  rw [e2] at hm hn
  have hu := u_pos (F := C)
  rw [hm, hn, ← sub_mul, abs_mul, abs_of_pos (show 0 < 2 * C.u by linarith)] at h2
  have h4 : |((m - n : ℤ) : ℝ)| < 1 := by
    push_cast
    by_contra hc
    rw [not_lt] at hc
    have := mul_le_mul_of_nonneg_right hc (show 0 ≤ 2 * C.u by linarith)
    linarith
  have h5 : |m - n| < 1 := by exact_mod_cast h4
  have h6 : m = n := by rw [abs_lt] at h5; omega
  rw [hm, hn, h6]

theorem sinImpl_absorb (h : TrigFmt L C t) {x y : ℝ} (hx : C.Has (.num x)) (hy : C.Has (.num y)) (h1 : |x| < C.u)
    (h2 : |y| < C.u) : sinImpl L C t il (.num x) = sinImpl L C t il (.num y) := by
  obtain ⟨z, z1, z2, z3, z4, z5⟩ := halfPi_near h
  have key : ∀ x, C.Has (.num x) → |x| < C.u → C.add (.num x) (.num z) = .num z := by
    intro x hx h1
    have e := rnd_absorb z2.2.1 (by linarith) h1
    have hv := add_val (F := C) (Val.num hx.1) (Val.num z2.1) (by rw [e]; exact z2.2.2)
    rw [e] at hv
    exact hv.eq_num z2.1
  unfold sinImpl
  rw [z1, key x hx h1, key y hy h2]

/-- the literal for `two_pi` is not near to a number with 53 to 113 bits -/
theorem frac_q : ∀ p ∈ Finset.Icc 53 113, (1 : ℤ) * 10 ^ 110 ≤ 65536 * ((Const.twoPi.lit * 10 ^ 110).num * 2 ^ (p - 3) % 10 ^ 110) ∧
    65536 * ((Const.twoPi.lit * 10 ^ 110).num * 2 ^ (p - 3) % 10 ^ 110) ≤ 65535 * 10 ^ 110 := by decide +kernel

theorem twoPi_far (w : C.Big) {z : ℝ} (hz : Rep C.p C.emin z) (h1 : 4 ≤ z) : (2 : ℝ) ^ (-127 : ℤ) ≤ |z - 2 * Real.pi| := by
  obtain ⟨m, hm⟩ := hz.grid' (e := 3 - C.p) (by
    rw [show (C.p : ℤ) - 1 + (3 - C.p) = 2 by ring]; norm_num; linarith)
  obtain ⟨a, b⟩ := frac_q C.p (Finset.mem_Icc.2 ⟨w.p53, w.p113⟩)
  obtain ⟨N, hN⟩ : ∃ N, N = (Const.twoPi.lit * 10 ^ 110).num := ⟨_, rfl⟩
  have hlit : (Const.twoPi.lit : ℝ) = N / 10 ^ 110 := by
    have : Const.twoPi.lit = ((Const.twoPi.lit * 10 ^ 110).num : ℚ) / 10 ^ 110 := by decide +kernel
    rw [← hN] at this
    rw [this]
    push_cast
    rfl
  rw [← hN] at a b
  have hp3 : (2 : ℝ) ^ (3 - (C.p : ℤ)) = 1 / 2 ^ (C.p - 3) := by
    rw [show 3 - (C.p : ℤ) = -((C.p - 3 : ℕ) : ℤ) by have := w.p53; omega, zpow_neg, zpow_natCast, one_div]
  obtain ⟨D, hD⟩ : ∃ D : ℤ, D = m * 10 ^ 110 - N * 2 ^ (C.p - 3) := ⟨_, rfl⟩
  have hDa : (10 : ℤ) ^ 110 ≤ 65536 * |D| := by
    have e := Int.emod_add_mul_ediv (N * 2 ^ (C.p - 3)) (10 ^ 110)
    generalize N * 2 ^ (C.p - 3) % 10 ^ 110 = r at *
    generalize N * 2 ^ (C.p - 3) / 10 ^ 110 = q at *
    have hD' : D = (m - q) * 10 ^ 110 - r := by rw [hD, ← e]; ring
    rcases lt_or_ge q m with h | h
    · have : (1 : ℤ) * 10 ^ 110 ≤ (m - q) * 10 ^ 110 := mul_le_mul_of_nonneg_right (by omega) (by positivity)
      have := le_abs_self D
      linarith
    · have : (m - q) * 10 ^ 110 ≤ 0 * 10 ^ 110 := mul_le_mul_of_nonneg_right (by omega) (by positivity)
      have := neg_le_abs D
      linarith
  have e1 : z - Const.twoPi.lit = D / (10 ^ 110 * 2 ^ (C.p - 3)) := by
    rw [hm, hp3, hlit, hD]
    push_cast
    field_simp
    norm_num
  have h2 : (2 : ℝ) ^ (-126 : ℤ) ≤ |z - Const.twoPi.lit| := by
    have hDr : (10 : ℝ) ^ 110 ≤ 65536 * |(D : ℝ)| := by exact_mod_cast hDa
    have hP : (2 : ℝ) ^ (C.p - 3) ≤ 2 ^ 110 := pow_le_pow_right₀ (by norm_num) (by have := w.p113; omega)
    rw [e1, abs_div, abs_of_pos (show (0 : ℝ) < 10 ^ 110 * 2 ^ (C.p - 3) by positivity), le_div_iff₀ (by positivity)]
    have e : (2 : ℝ) ^ (-126 : ℤ) = 1 / (65536 * 2 ^ 110) := by norm_num
    rw [e, one_div_mul_eq_div, div_le_iff₀ (by positivity)]
    have i1 : (10 : ℝ) ^ 110 * 2 ^ (C.p - 3) ≤ 65536 * |(D : ℝ)| * 2 ^ 110 :=
      mul_le_mul hDr hP (by positivity) (by positivity)
    linarith
  have h3 := lit_near .twoPi
  have e3 : Const.twoPi.real = 2 * Real.pi := rfl
  rw [e3] at h3
  have h4 := abs_add_le (z - 2 * Real.pi) (2 * Real.pi - Const.twoPi.lit)
  rw [sub_add_sub_cancel, abs_sub_comm (2 * Real.pi)] at h4
  have h5 : (2 : ℝ) ^ (-127 : ℤ) + 1 / 10 ^ 110 ≤ (2 : ℝ) ^ (-126 : ℤ) := by norm_num
  generalize (2 : ℝ) ^ (-127 : ℤ) = A at *
  generalize (2 : ℝ) ^ (-126 : ℤ) = B at *
  generalize (1 / 10 ^ 110 : ℝ) = c at *
  linarith

/-- a multiple of a small number in the second quadrant -/
theorem exists_mul {δ : ℝ} (h1 : (2 : ℝ) ^ (-127 : ℤ) ≤ δ) (h2 : δ ≤ 1) :
    ∃ k : ℕ, k ≤ 129 ∧ Real.pi / 2 ≤ 2 ^ k * δ ∧ 2 ^ k * δ ≤ Real.pi := by
  have p1 := Real.pi_gt_three
  have p2 := Real.pi_lt_d2
  have hex : ∃ k : ℕ, Real.pi / 2 ≤ 2 ^ k * δ := by
    refine ⟨129, ?_⟩
    have h3 := mul_le_mul_of_nonneg_left h1 (show (0 : ℝ) ≤ 2 ^ 129 by positivity)
    have e : (2 : ℝ) ^ 129 * (2 : ℝ) ^ (-127 : ℤ) = 4 := by norm_num
    rw [e] at h3
    generalize (2 : ℝ) ^ 129 * δ = A at *
    linarith
  classical
  have hs := Nat.find_spec hex
  obtain ⟨k, hk⟩ : ∃ k, k = Nat.find hex := ⟨_, rfl⟩
  rw [← hk] at hs
  have hk0 : k ≠ 0 := by
    intro h0
    rw [h0, pow_zero, one_mul] at hs
    linarith
  have hm : ¬ Real.pi / 2 ≤ 2 ^ (k - 1) * δ := Nat.find_min hex (by omega)
  rw [not_le] at hm
  have e : (2 : ℝ) ^ k = 2 * 2 ^ (k - 1) := by
    rw [← pow_succ']
    congr 1
    omega
  refine ⟨k, ?_, hs, ?_⟩
  · rw [hk]
    refine Nat.find_min' hex ?_
    have h3 := mul_le_mul_of_nonneg_left h1 (show (0 : ℝ) ≤ 2 ^ 129 by positivity)
    have e : (2 : ℝ) ^ 129 * (2 : ℝ) ^ (-127 : ℤ) = 4 := by norm_num
    rw [e] at h3
    generalize (2 : ℝ) ^ 129 * δ = A at *
    linarith
  · rw [e]
    linarith

end MathTrig

/-- The argument is reduced by a rounded multiple of pi: there is an argument of which the cosine is negative, but computed as about
one. -/
theorem C97_cos_refuted (L C : Fmt) (t : FloatTy) (h : TrigFmt L C t) (il : FV → Option (Ret ℤ))
    (hil : LogbUpTo C il (2 ^ 133)) : ∃ x v, C.Has (.num x) ∧ |x| ≤ 2 ^ 132 ∧ cos L C C t il (.num x) = some (.ret v) ∧ v.isFin ∧
      Real.cos x ≤ 0 ∧ 1 / 2 ≤ v.val := by
  obtain ⟨z, z1, z2, z3, z4, z5⟩ := twoPi_near h
  have hu := u_pos (F := C)
  have hu8 := h.big.u_small
  have hfar := twoPi_far h.big z2.2.1 (by linarith)
  obtain ⟨k, k1, k2, k3⟩ := exists_mul hfar (by linarith)
  have hk : (2 : ℝ) ^ k ≤ 2 ^ 129 := pow_le_pow_right₀ (by norm_num) k1
  have hk0 : (0 : ℝ) < 2 ^ k := by positivity
  have hx0 : 0 < 2 ^ k * z := by positivity
  have hxb : |2 ^ k * z| ≤ 2 ^ 132 := by
    rw [abs_of_pos hx0]
    calc (2 : ℝ) ^ k * z ≤ 2 ^ 129 * 8 := mul_le_mul hk (by linarith) (by linarith) (by positivity)
      _ = 2 ^ 132 := by norm_num
  have hrep : Rep C.p C.emin (2 ^ k * z) := by
    obtain ⟨m, e, he, hm, hz⟩ := z2.2.1
    refine ⟨m, e + k, by omega, hm, ?_⟩
    rw [hz, zpow_add₀ (by norm_num), zpow_natCast]
    ring
  have hmax : (2 : ℝ) ^ 132 < (2 : ℝ) ^ C.emax := by
    rw [← zpow_natCast]
    exact zpow_lt_zpow_right₀ (by norm_num) (by have := h.big.emax; push_cast; omega)
  have hx : C.Has (.num (2 ^ k * z)) := ⟨ne_of_gt hx0, hrep, lt_of_le_of_lt hxb hmax⟩
  have hb2 : (2 : ℝ) ^ 132 + 8 ≤ 2 ^ 133 := by norm_num
  obtain ⟨v, r, h1, h2, h3, -, h5, y, z', h6, -, h7, h8⟩ := cosImpl_near (L := L) h hx (il := il)
    (fun w k a b c d => hil w k a b (le_trans c (le_trans (add_le_add_left hxb 8) hb2)) d)
  have ez : z' = z := by
    rw [z1] at h6
    injection h6 with h6
    exact h6.symm
  subst ez
  have hy : y = 0 := by
    obtain ⟨⟨q, hq⟩, hlt, -⟩ := h7
    have e : y = ((2 ^ k - q : ℤ) : ℝ) * z' := by push_cast; linarith
    rw [e, abs_mul] at hlt
    have hzp : 0 < |z'| := abs_pos.2 z2.1
    have : |((2 ^ k - q : ℤ) : ℝ)| < 1 := by
      by_contra hc
      rw [not_lt] at hc
      have := mul_le_mul_of_nonneg_right hc (le_of_lt hzp)
      linarith
    have h9 : |(2 ^ k - q : ℤ)| < 1 := by exact_mod_cast this
    have h10 : (2 ^ k - q : ℤ) = 0 := Int.abs_lt_one_iff.1 h9
    rw [e, h10]
    simp
  rw [hy, Real.cos_zero] at h8
  have hbv : |r| < (2 : ℝ) ^ C.emax := by
    have hM := MathLog.big_max h.big
    have : (2 : ℝ) ^ (C.emax - 1) < (2 : ℝ) ^ C.emax := zpow_lt_zpow_right₀ (by norm_num) (by omega)
    linarith
  refine ⟨2 ^ k * z', v, hx, hxb, ?_, h2.isFin, ?_, ?_⟩
  · rw [cos_num ⟨le_refl _, le_refl _, le_refl _⟩ hx, h1, bindRet_ret, cvt_of_val h2 h3 hbv]
  · have e : Real.cos (2 ^ k * z') = Real.cos (2 ^ k * |z' - 2 * Real.pi|) := by
      have e1 : Real.cos (2 ^ k * z') = Real.cos (2 ^ k * (z' - 2 * Real.pi)) := by
        have := Real.cos_add_nat_mul_two_pi (2 ^ k * (z' - 2 * Real.pi)) (2 ^ k)
        rw [← this]
        congr 1
        push_cast
        ring
      rw [e1]
      rcases abs_choice (z' - 2 * Real.pi) with h | h
      · rw [h]
      · rw [h, mul_neg, Real.cos_neg]
    rw [e]
    exact Real.cos_nonpos_of_pi_div_two_le_of_le k2 (by linarith [Real.pi_pos])
  · rw [h2.val]
    have := (abs_le.1 h8).1
    linarith

/-- The sine is the same for all arguments of absolute value below half an epsilon, of either sign, so that the result has the wrong
sign, or is zero, for half of them. -/
theorem C97_sin_refuted (L F C : Fmt) (t : FloatTy) (hs : F.Sub C) (h : TrigFmt L C t) (il : FV → Option (Ret ℤ))
    (hil : LogbUpTo C il 18) (x : ℝ) (hx : F.Has (.num x)) (hu : |x| < (2 : ℝ) ^ (-(C.p : ℤ))) :
    ∃ v, C.Has v ∧ v.isFin ∧ sin L F C t il (.num x) = some (.ret (F.cvt v)) ∧
      sin L F C t il (.num (-x)) = some (.ret (F.cvt v)) ∧
      (|Real.sin x| ≤ |v.val - Real.sin x| ∨ |Real.sin (-x)| ≤ |v.val - Real.sin (-x)|) := by
  have hu8 := h.big.u_small
  have huE : (2 : ℝ) ^ (-(C.p : ℤ)) = C.u := rfl
  have hM := MathLog.big_max h.big
  rw [huE] at hu
  have hx' : F.Has (.num (-x)) := ⟨neg_ne_zero.2 hx.1, hx.2.1.neg, by rw [abs_neg]; exact hx.2.2⟩
  have hxC : C.Has (.num x) := ⟨hx.1, hs.rep hx.2.1, hs.lt hx.2.2⟩
  have hxC' : C.Has (.num (-x)) := ⟨hx'.1, hs.rep hx'.2.1, hs.lt hx'.2.2⟩
  have e2 : (2 : ℝ) ^ (C.emax - 1) = 2 * (2 : ℝ) ^ (C.emax - 2) := by
    rw [show C.emax - 1 = 1 + (C.emax - 2) by ring, zpow_add₀ (by norm_num), zpow_one]
  obtain ⟨v, r, h1, h2, h3, h4, h5⟩ := sinImpl_near (L := L) h hxC (by linarith) (il := il)
    (fun z k a b c d => hil z k a b (by linarith) d)
  have e := sinImpl_absorb (L := L) (il := il) h hxC' hxC (by rwa [abs_neg]) hu
  refine ⟨v, has_400 h h2 h3 h5, h2.isFin, ?_, ?_, ?_⟩
  · rw [sin_num hs hx, h1, bindRet_ret]
  · rw [sin_num hs hx', e, h1, bindRet_ret]
  · rw [Real.sin_neg, abs_neg, sub_neg_eq_add]
    rcases le_total (v.val * Real.sin x) 0 with hm | hm
    · left
      refine sq_le_sq.1 ?_
      nlinarith [sq_nonneg v.val]
    · right
      refine sq_le_sq.1 ?_
      nlinarith [sq_nonneg v.val]

/-- the formats of `double` with the usual `long double` -/
theorem trigFmt_double : TrigFmt extended double .double := by
  refine ⟨big_double, by simp [Fmt.Sub, extended, double, ieee], by simp [HasFormat, double, ieee], ?_, ?_⟩ <;> decide

/-- a function which returns all exponents -/
noncomputable def trueLogb (v : FV) : Option (Ret ℤ) := some (.ret (Int.log 2 |v.val|))

theorem trueLogb_spec (C : Fmt) (b : ℝ) : LogbUpTo C trueLogb b := by
  intro z k hz _ _ hk
  have e : (FV.num |z|).val = |z| := rfl
  unfold trueLogb
  rw [e, abs_abs]
  have h := abs_lt_two_zpow_log hz.1
  have h1 := (zpow_lt_zpow_iff_right₀ (by norm_num : (1 : ℝ) < 2)).1 (lt_of_le_of_lt h.1 hk.2)
  have h2 := (zpow_lt_zpow_iff_right₀ (by norm_num : (1 : ℝ) < 2)).1 (lt_of_le_of_lt hk.1 h.2)
  congr 2
  omega

example : ∃ v, cos extended float double .double trueLogb (.num 100) = some (.ret (float.cvt v)) ∧ double.Has v ∧ v.isFin ∧
    |v.val - Real.cos 100| ≤ (3850 + 4 * |(100 : ℝ)|) * (2 : ℝ) ^ (-((double).p : ℤ)) :=
  C97_cos_partial extended float double .double (by simp [Fmt.Sub, float, double, ieee]) trigFmt_double _ 100
    (by exact_mod_cast has_int float 100 (by norm_num) (by decide)) (trueLogb_spec _ _)

example : ∃ v, sin extended float double .double trueLogb (.num 100) = some (.ret (float.cvt v)) ∧ double.Has v ∧ v.isFin ∧
    |v.val - Real.sin 100| ≤ (3900 + 6 * |(100 : ℝ)|) * (2 : ℝ) ^ (-((double).p : ℤ)) := by
  refine C97_sin_partial extended float double .double (by simp [Fmt.Sub, float, double, ieee]) trigFmt_double _ 100
    (by exact_mod_cast has_int float 100 (by norm_num) (by decide)) ?_ (trueLogb_spec _ _)
  rw [abs_of_pos (by norm_num)]
  calc (100 : ℝ) ≤ (2 : ℝ) ^ (7 : ℤ) := by norm_num
    _ ≤ _ := zpow_le_zpow_right₀ (by norm_num) (by decide)

end Sprout
