import Verif.Proofs.MathMod

/-! # C91: remainders of floating values -/

namespace Sprout

open Classical FV Fmt MathRound MathScale MathMod

/-- `r` is the remainder of the division with the quotient truncated -/
def IsRem (r x y : ℝ) : Prop := (∃ q : ℤ, x = q * y + r) ∧ |r| < |y| ∧ 0 ≤ r * x

/-- `n` is the integer nearest to `x / y`, the even one if there are two, and `r` the remainder -/
def IsNearRem (n : ℤ) (r x y : ℝ) : Prop := x = n * y + r ∧ 2 * |r| ≤ |y| ∧ (2 * |r| = |y| → Even n)

namespace MathMod

variable {F C : Fmt}

/-- the remainder of absolute values, with the sign of `x` -/
noncomputable def signed (x r : ℝ) : FV := if x < 0 then (mkv false r).neg else mkv false r

theorem signed_eq (x r : ℝ) : signed x r = mkv (decide (x < 0)) (if x < 0 then -r else r) := by
  unfold signed
  split_ifs with h <;> simp [h]

theorem abs_eq (x : ℝ) (h : x ≠ 0) : (FV.num x).abs = mkv false |x| := by
  rw [← mkv_num false h, abs_mkv]

theorem fmod6_eq {x y R : ℝ} (hy0 : 0 < y) (hR0 : 0 ≤ R) (hR2 : R < 2 * y) (hx : Rep C.p C.emin |x|)
    (hy : Rep C.p C.emin y) (hyb : y < (2 : ℝ) ^ C.emax) (q : ℤ) (e : |x| = q * y + R) (hle : R ≤ |x|) :
    ∃ (r : ℝ) (q' : ℤ), fmod6 C (.num x) (mkv false y) (mkv false R) = signed x r ∧ |x| = q' * y + r ∧ 0 ≤ r ∧ r < y := by
  unfold fmod6 signed
  simp only [le_mkv, lt_num_zero]
  by_cases hc : y ≤ R
  · simp only [if_pos hc]
    have e' : R - y = |x| - ((q + 1 : ℤ) : ℝ) * y := by push_cast; linarith
    have h1 : |R - y| < y := by rw [abs_of_nonneg (by linarith)]; linarith
    have hr : Rep C.p C.emin (R - y) := hx.rem hy (q + 1) e'
      (by rw [abs_abs, abs_of_nonneg (by linarith)]; linarith) (by rw [abs_of_pos hy0]; exact le_of_lt h1)
    rw [sub_pos_mkv hc (ne_of_gt hy0) hr (by linarith)]
    exact ⟨R - y, q + 1, rfl, by rw [e']; ring, by linarith, by linarith⟩
  · simp only [if_neg hc]
    exact ⟨R, q, rfl, e, hR0, not_le.1 hc⟩

/-- what is assumed of the arguments of a division and their exponents -/
structure Args (C : Fmt) (x y : ℝ) (kx ky : ℤ) : Prop where
  hC : C.emin ≤ 1 - C.emax
  hC2 : C.emax < 2 ^ 30
  hx : C.Has (.num x)
  hy : C.Has (.num y)
  ex : IsExp kx x
  ey : IsExp ky y
  h1 : -C.emax < ky

theorem Args.le {x y : ℝ} {kx ky : ℤ} (h : Args C x y kx ky) (hxy : |y| ≤ |x|) : ky ≤ kx := by
  have := lt_of_le_of_lt (le_trans h.ey.1 hxy) h.ex.2
  have := (zpow_lt_zpow_iff_right₀ (by norm_num : (1 : ℝ) < 2)).1 this
  omega

/-- the significands form a state of the long division -/
theorem Args.state {x y : ℝ} {kx ky : ℤ} (h : Args C x y kx ky) (hk : ky ≤ kx) :
    scalbn C C minInt (mkv false |x|) (-kx) = some (mkv false (|x| * (2 : ℝ) ^ (-kx))) ∧
    scalbn C C minInt (mkv false |y|) (-ky) = some (mkv false (|y| * (2 : ℝ) ^ (-ky))) ∧
    State C (|x| * (2 : ℝ) ^ (-kx)) (|y| * (2 : ℝ) ^ (-ky)) := by
  have h1 := h.h1
  obtain ⟨a1, a2, a3, a4, a5⟩ := start (C := C) (abs_pos.2 h.hx.1) h.hx.2.1.abs (by rw [abs_abs]; exact h.hx.2.2)
    (isExp_abs h.ex) h.hC h.hC2 (by omega)
  obtain ⟨b1, b2, b3, b4, b5⟩ := start (C := C) (abs_pos.2 h.hy.1) h.hy.2.1.abs (by rw [abs_abs]; exact h.hy.2.2)
    (isExp_abs h.ey) h.hC h.hC2 h1
  exact ⟨a1, b1, ⟨a2, b2, by linarith, by linarith, by linarith, by linarith, a5⟩⟩

/-- the equation of the long division, scaled back -/
theorem Args.eqn {x y X' : ℝ} {kx ky : ℤ} (hk : ky ≤ kx) (q : ℕ)
    (e : |x| * (2 : ℝ) ^ (-kx) * 2 ^ (kx - ky).toNat = X' + 2 * q * (|y| * (2 : ℝ) ^ (-ky))) :
    |x| = X' * (2 : ℝ) ^ ky + ((2 * q : ℤ) : ℝ) * |y| := by
  have h1 : (2 : ℝ) ^ (kx - ky).toNat = (2 : ℝ) ^ (kx - ky) := by
    rw [← zpow_natCast, Int.toNat_of_nonneg (by omega)]
  have h2 : |x| * (2 : ℝ) ^ (-kx) * (2 : ℝ) ^ (kx - ky) * (2 : ℝ) ^ ky = |x| := by
    rw [mul_assoc, mul_assoc, ← zpow_add₀ (by norm_num), ← zpow_add₀ (by norm_num)]
    rw [show -kx + (kx - ky + ky) = 0 by ring, zpow_zero, mul_one]
  have h3 : (2 : ℝ) ^ (-ky) * (2 : ℝ) ^ ky = 1 := by rw [← zpow_add₀ (by norm_num)]; simp
  rw [h1] at e
  rw [← h2, e]
  push_cast
  linear_combination 2 * (q : ℝ) * |y| * h3

theorem fmod2_eq {x y : ℝ} {kx ky : ℤ} (h : Args C x y kx ky) (hxy : |y| ≤ |x|) :
    ∃ (r : ℝ) (q : ℤ), fmod2 C (.num x) (mkv false |y|) (mkv false |x|) kx ky = some (signed x r) ∧
      |x| = q * |y| + r ∧ 0 ≤ r ∧ r < |y| := by
  have hk := h.le hxy
  have hy0 := abs_pos.2 h.hy.1
  have hx0 := abs_pos.2 h.hx.1
  unfold fmod2
  rw [if_neg (by omega)]
  by_cases hz : kx - ky ≠ 0
  · rw [if_pos hz]
    obtain ⟨s1, s2, hS⟩ := h.state hk
    obtain ⟨X', q, h1, h2, h3⟩ := fmod5_eq (.num x) (mkv false |y|) ky (kx - ky).toNat _ _ hS
    rw [s1, Option.bind_some, s2, Option.bind_some, h3]
    have e := Args.eqn hk q h2
    have hkx := (exp_range (F := C) h.hx h.ex).2
    obtain ⟨f1, f2, f3⟩ := finish h.hx.2.1.abs h.hy.2.1.abs h1 (2 * q) e h.h1 (by omega) (exp_range (F := C) h.hy h.ey).1 h.hC2
    have hp : (0 : ℝ) < (2 : ℝ) ^ ky := by positivity
    have hq : (0 : ℝ) ≤ ((2 * q : ℤ) : ℝ) * |y| := by positivity
    obtain ⟨r, q', g1, g2, g3, g4⟩ := fmod6_eq (C := C) (x := x) hy0 (mul_nonneg h1.x0 (le_of_lt hp)) (R := X' * (2 : ℝ) ^ ky)
      (by
        have := mul_lt_mul_of_pos_right h1.lt hp
        have h3 : (2 : ℝ) ^ (-ky) * (2 : ℝ) ^ ky = 1 := by rw [← zpow_add₀ (by norm_num)]; simp
        have h4 : 2 * (|y| * (2 : ℝ) ^ (-ky)) * (2 : ℝ) ^ ky = 2 * |y| := by linear_combination 2 * |y| * h3
        linarith)
      h.hx.2.1.abs h.hy.2.1.abs h.hy.2.2 (2 * q) (by linarith) (by linarith)
    rw [f1, Option.map_some, g1]
    exact ⟨r, q', rfl, g2, g3, g4⟩
  · rw [if_neg hz]
    have hkk : kx = ky := by omega
    obtain ⟨r, q', g1, g2, g3, g4⟩ := fmod6_eq (C := C) (x := x) hy0 (le_of_lt hx0) (R := |x|)
      (by
        have a := h.ex.2
        have b := h.ey.1
        rw [hkk, zpow_add₀ (by norm_num), zpow_one] at a
        linarith)
      h.hx.2.1.abs h.hy.2.1.abs h.hy.2.2 0 (by simp) (le_refl _)
    rw [g1]
    exact ⟨r, q', rfl, g2, g3, g4⟩

theorem bindRet_ret {α β : Type} (v : α) (f : α → Option (Ret β)) : bindRet (some (.ret v)) f = f v := rfl

theorem fmod_num {il : FV → Option (Ret ℤ)} {x y : ℝ} (hs : F.Sub C) (hx : F.Has (.num x)) (hy : F.Has (.num y)) :
    fmod F C il (.num x) (.num y) = bindRet (fmodImpl C il (.num x) (.num y)) fun r => some (.ret (F.cvt r)) := by
  have hx0 := hx.1
  have hy0 := hy.1
  unfold fmod
  simp only [MathClass.isnan, eq_num_num, eq_num_zero, eq_num_inf, hx0, hy0, decide_true, Bool.not_true,
    Bool.false_eq_true, if_false, or_self]
  rw [cvt_num (hs.rep hx.2.1) (hs.lt hx.2.2) hx0, cvt_num (hs.rep hy.2.1) (hs.lt hy.2.2) hy0]

/-- the signed remainder -/
theorem isRem_signed {x y r : ℝ} {q : ℤ} (hx0 : x ≠ 0) (e : |x| = q * |y| + r) (h0 : 0 ≤ r) (h1 : r < |y|) :
    IsRem (signed x r).val x y ∧ (signed x r).sgn = decide (x < 0) ∧ (signed x r).val = (if x < 0 then -r else r) := by
  rw [signed_eq, val_mkv, sgn_mkv]
  refine ⟨⟨?_, ?_, ?_⟩, ?_, rfl⟩
  · rcases lt_or_gt_of_ne hx0 with hx | hx <;> rcases le_total 0 y with hy | hy
    · rw [if_pos hx]; rw [abs_of_neg hx, abs_of_nonneg hy] at e
      exact ⟨-q, by push_cast; linarith⟩
    · rw [if_pos hx]; rw [abs_of_neg hx, abs_of_nonpos hy] at e
      exact ⟨q, by linarith⟩
    · rw [if_neg (not_lt.2 (le_of_lt hx))]; rw [abs_of_pos hx, abs_of_nonneg hy] at e
      exact ⟨q, by linarith⟩
    · rw [if_neg (not_lt.2 (le_of_lt hx))]; rw [abs_of_pos hx, abs_of_nonpos hy] at e
      exact ⟨-q, by push_cast; linarith⟩
  · split_ifs
    · rwa [abs_neg, abs_of_nonneg h0]
    · rwa [abs_of_nonneg h0]
  · split_ifs with hx
    · nlinarith
    · exact mul_nonneg h0 (not_lt.1 hx)
  · by_cases hx : x < 0
    · simp only [if_pos hx]
      split_ifs with hz
      · rfl
      · rw [decide_eq_decide]
        have : r ≠ 0 := by simpa using hz
        exact ⟨fun _ => hx, fun _ => by have := lt_of_le_of_ne h0 (Ne.symm this); linarith⟩
    · simp only [if_neg hx]
      split_ifs with hz
      · rfl
      · rw [decide_eq_decide]
        exact ⟨fun hh => absurd hh (not_lt.2 h0), fun hh => absurd hh hx⟩

theorem has_signed {x r : ℝ} (hr : Rep F.p F.emin r) (hb : |r| < (2 : ℝ) ^ F.emax) : F.Has (signed x r) ∧ (signed x r).isFin ∧
    F.cvt (signed x r) = signed x r := by
  rw [signed_eq]
  have h1 : Rep F.p F.emin (if x < 0 then -r else r) := by split_ifs; exacts [hr.neg, hr]
  have h2 : |(if x < 0 then -r else r)| < (2 : ℝ) ^ F.emax := by split_ifs; exacts [by rwa [abs_neg], hb]
  exact ⟨has_mkv h1 h2, isFin_mkv _ _, cvt_mkv h1 h2⟩

end MathMod

/-- `fmod` is exact, given the exponents of the arguments, if that of the divisor is above the least one which the scaling
supports. Missing: smaller divisors, for which see `C91_fmod_refuted`. -/
theorem C91_fmod_partial (F C : Fmt) (hs : F.Sub C) (il : FV → Option (Ret ℤ)) (x y : ℝ) (hx : F.Has (.num x))
    (hy : F.Has (.num y)) (kx ky : ℤ) (ha : Args C x y kx ky) (hix : il (.num |x|) = some (.ret kx))
    (hiy : il (.num |y|) = some (.ret ky)) :
    ∃ w, fmod F C il (.num x) (.num y) = some (.ret w) ∧ F.Has w ∧ w.isFin ∧ IsRem w.val x y ∧ w.sgn = decide (x < 0) := by
  have hx0 := hx.1
  have hy0 := hy.1
  rw [fmod_num hs hx hy]
  unfold fmodImpl
  simp only [abs_eq x hx0, abs_eq y hy0, lt_mkv]
  by_cases hxy : |x| < |y|
  · rw [if_pos hxy]
    refine ⟨.num x, ?_, hx, rfl, ⟨⟨0, by simp [val]⟩, hxy, mul_self_nonneg _⟩, rfl⟩
    rw [bindRet_ret, cvt_num hx.2.1 hx.2.2 hx0]
  · rw [if_neg hxy, mkv_num _ (abs_ne_zero.2 hx0), mkv_num _ (abs_ne_zero.2 hy0), hix, bindRet_ret, hiy, bindRet_ret,
      ← mkv_num false (abs_ne_zero.2 hx0), ← mkv_num false (abs_ne_zero.2 hy0)]
    obtain ⟨r, q, h1, h2, h3, h4⟩ := fmod2_eq ha (not_lt.1 hxy)
    have hr : Rep F.p F.emin r := hx.2.1.abs.rem hy.2.1.abs q (by linarith)
      (by rw [abs_of_nonneg h3, abs_abs]; linarith [not_lt.1 hxy]) (by rw [abs_of_nonneg h3, abs_abs]; linarith)
    have hb : |r| < (2 : ℝ) ^ F.emax := by rw [abs_of_nonneg h3]; exact lt_trans h4 hy.2.2
    obtain ⟨g1, g2, g3⟩ := has_signed (F := F) (x := x) hr hb
    obtain ⟨i1, i2, -⟩ := isRem_signed (y := y) hx0 h2 h3 h4
    refine ⟨signed x r, ?_, g1, g2, i1, i2⟩
    rw [h1, Option.map_some, bindRet_ret, g3]

/-- the special values -/
theorem C91_fmod_special (F C : Fmt) (il : FV → Option (Ret ℤ)) (x y : FV) (hx : F.Has x) (hy : F.Has y) :
    (x = .nan ∨ y = .nan → fmod F C il x y = some (.ret .nan)) ∧
    (∀ s, x = .inf s → fmod F C il x y = some (.ret .nan)) ∧ (∀ s, y = .zero s → fmod F C il x y = some (.ret .nan)) ∧
    (∀ s t, x = .zero s → y = .inf t → fmod F C il x y = some (.ret x)) ∧
    (∀ s z, x = .zero s → y = .num z → fmod F C il x y = some (.ret x)) ∧
    (∀ z t, x = .num z → y = .inf t → fmod F C il x y = some (.ret x)) := by
  refine ⟨?_, ?_, ?_, ?_, ?_, ?_⟩
  · rintro (rfl | rfl)
    · cases y <;> simp [fmod, MathClass.isnan]
    · cases x <;> simp [fmod, MathClass.isnan]
  · rintro s rfl
    cases y <;> cases s <;> simp [fmod, MathClass.isnan]
  · rintro s rfl
    cases x with
    | inf t => cases t <;> simp [fmod, MathClass.isnan]
    | _ => simp [fmod, MathClass.isnan]
  · rintro s t rfl rfl
    cases t <;> simp [fmod, MathClass.isnan]
  · rintro s z rfl rfl
    have := hy.1
    simp [fmod, MathClass.isnan, this]
  · rintro z t rfl rfl
    have := hx.1
    cases t <;> simp [fmod, MathClass.isnan, this]

/-- In a type much narrower than the type of computation, all remainders of finite numbers are exact, with exponents from
a correctly rounded logarithm: `float` computed in `double`. -/
theorem C91_fmod_float (F C : Fmt) (hs : F.Sub C) (hC : Ordinary C) (hm : C.emin ≤ 1 - C.emax) (h1 : -C.emax < F.emin)
    (h2 : F.emax < C.emax) (noerr : Bool) (log2 : FV → FV) (hl : LogRounds C log2) (i0 inan : ℤ) (x y : ℝ)
    (hx : F.Has (.num x)) (hy : F.Has (.num y)) :
    ∃ w, fmod F C (ilogb C C noerr log2 i0 inan) (.num x) (.num y) = some (.ret w) ∧ F.Has w ∧ w.isFin ∧
      IsRem w.val x y ∧ w.sgn = decide (x < 0) := by
  have hex : ∀ z, F.Has (.num z) → ∃ k, IsExp k z ∧ F.emin ≤ k ∧ k < F.emax ∧ C.Has (.num z) ∧
      ilogb C C noerr log2 i0 inan (.num |z|) = some (.ret k) := by
    intro z hz
    have hp : 0 < |z| := abs_pos.2 hz.1
    have hk : IsExp (Int.log 2 |z|) z := by
      have := abs_lt_two_zpow_log hz.1
      exact this
    obtain ⟨e1, e2⟩ := exp_range hz hk
    have hzC : C.Has (.num z) := ⟨hz.1, hs.rep hz.2.1, hs.lt hz.2.2⟩
    have hzC' : C.Has (.num |z|) := ⟨ne_of_gt hp, hzC.2.1.abs, by rw [abs_abs]; exact hzC.2.2⟩
    refine ⟨_, hk, e1, e2, hzC, ?_⟩
    obtain ⟨-, -, c1, c2⟩ := id hC
    refine C90_ilogb C C noerr log2 i0 inan |z| hzC' _ (C90_logb_partial C C ⟨le_refl _, le_refl _, le_refl _⟩ hC noerr log2 hl _
      hzC' _ (isExp_abs hk) (by omega) (by omega) (by have := hs.2.1; omega)) ?_ ?_
    · unfold minInt; have := hs.2.1; omega
    · unfold maxInt; omega
  obtain ⟨kx, a1, a2, a3, a4, a5⟩ := hex x hx
  obtain ⟨ky, b1, b2, b3, b4, b5⟩ := hex y hy
  exact C91_fmod_partial F C hs _ x y hx hy kx ky ⟨hm, hC.2.2.2, a4, b4, a1, b1, by omega⟩ a5 b5

namespace MathMod

variable {C : Fmt}

/-- a power of two, which may overflow -/
noncomputable def pw (C : Fmt) (j : ℤ) : FV := if j < C.emax then .num ((2 : ℝ) ^ j) else .inf false

theorem pw_add (j : ℤ) (hj : 0 ≤ j) : C.add (pw C j) (pw C j) = pw C (j + 1) := by
  unfold pw
  by_cases h : j < C.emax
  · rw [if_pos h]
    have hp : (0 : ℝ) < (2 : ℝ) ^ j := by positivity
    show C.ofReal (decide ((2 : ℝ) ^ j + (2 : ℝ) ^ j < 0)) ((2 : ℝ) ^ j + (2 : ℝ) ^ j) = _
    have e : (2 : ℝ) ^ j + (2 : ℝ) ^ j = (2 : ℝ) ^ (j + 1) := by rw [zpow_add₀ (by norm_num), zpow_one]; ring
    rw [e]
    have := C.emin_le_zero
    by_cases h2 : j + 1 < C.emax
    · rw [if_pos h2, ofReal_zpow (by omega) h2]
    · rw [if_neg h2, ofReal_zpow_inf (by omega)]
  · rw [if_neg h, if_neg (by omega)]
    simp [Fmt.add]

theorem pw_sub (j : ℤ) : ¬ (FV.zero false).le (C.sub (pw C j) (.inf false)) := by
  unfold pw
  split_ifs <;> simp [Fmt.sub, FV.neg, Fmt.add, FV.le_iff]

theorem fmod5_inf (x y : FV) (iscy : ℤ) (n : ℕ) (j : ℤ) (hj : 0 ≤ j) (z : FV) (hz : ¬ (FV.zero false).le z) :
    fmod5 C x y (.inf false) iscy n (pw C j) z = (scalbn C C minInt (pw C (j + n)) iscy).map (fmod6 C x y) := by
  induction n generalizing j z with
  | zero => simp [fmod5]
  | succ n ih =>
    unfold fmod5
    rw [if_neg hz, pw_add j hj, ih (j + 1) (by omega) _ (pw_sub _)]
    congr 3
    push_cast; ring

end MathMod

/-- If the power of two in the scaling overflows, the remainder is infinite: that of 1 divided by the least positive number
of `double`, even with the right exponents. -/
theorem C91_fmod_refuted (F : Fmt) (hm : F.emin ≤ -F.emax) (hC2 : -2 ^ 30 < F.emin) (il : FV → Option (Ret ℤ))
    (h1 : il (.num 1) = some (.ret 0)) (h2 : il (.num ((2 : ℝ) ^ F.emin)) = some (.ret F.emin)) :
    IsRem 0 1 ((2 : ℝ) ^ F.emin) ∧ fmod F F il (.num 1) (.num ((2 : ℝ) ^ F.emin)) = some (.ret (.inf false)) := by
  have hem := F.emax_pos
  have hp : (0 : ℝ) < (2 : ℝ) ^ F.emin := by positivity
  have hx : F.Has (.num 1) := ⟨one_ne_zero, F.rep_one, by rw [abs_one]; exact one_lt_emax F⟩
  have hy : F.Has (.num ((2 : ℝ) ^ F.emin)) := ⟨ne_of_gt hp, Rep.two_zpow _ (le_refl _) F.one_le_p, by
    rw [abs_of_pos hp]; exact zpow_lt_zpow_right₀ (by norm_num) (by omega)⟩
  obtain ⟨d, hd⟩ := Int.eq_ofNat_of_zero_le (show 0 ≤ -F.emin by omega)
  have hlt : (2 : ℝ) ^ F.emin < 1 := by
    rw [← zpow_zero (2 : ℝ)]; exact zpow_lt_zpow_right₀ (by norm_num) (by omega)
  constructor
  · refine ⟨⟨2 ^ d, ?_⟩, by rw [abs_zero]; exact abs_pos.2 (ne_of_gt hp), by simp⟩
    push_cast
    rw [← zpow_natCast, ← hd, add_zero, ← zpow_add₀ (by norm_num)]; simp
  · rw [fmod_num ⟨le_refl _, le_refl _, le_refl _⟩ hx hy]
    unfold fmodImpl
    have a1 : (FV.num 1).abs = .num 1 := by simp [FV.abs]
    have a2 : (FV.num ((2 : ℝ) ^ F.emin)).abs = .num ((2 : ℝ) ^ F.emin) := by simp [FV.abs]
    simp only [a1, a2, lt_num_num]
    rw [if_neg (not_lt.2 (le_of_lt hlt)), h1, bindRet_ret, h2, bindRet_ret]
    have s1 : scalbn F F minInt (.num 1) (-0) = some (pw F 0) := by
      rw [C90_scalbn_special F F minInt _ (-0) (by simp)]
      unfold pw; rw [if_pos (by omega), zpow_zero]
    have s2 : scalbn F F minInt (.num ((2 : ℝ) ^ F.emin)) (-F.emin) = some (.inf false) := by
      rw [scalbn_num F F minInt (ne_of_gt hp) (by omega), powN_inf (by omega), Option.map_some, cvt_num hy.2.1 hy.2.2 hy.1]
      simp [Fmt.mul, sgn, Fmt.cvt, le_of_lt hp]
    unfold fmod2
    rw [if_neg (by omega), if_pos (by omega), s1, Option.bind_some, s2, Option.bind_some,
      fmod5_inf _ _ _ _ 0 (le_refl _) _ (pw_sub _)]
    have e : pw F (0 + ((0 - F.emin).toNat : ℤ)) = .inf false := by
      unfold pw; rw [if_neg (by omega)]
    rw [e, C90_scalbn_special F F minInt _ _ (by simp [isFin]), Option.map_some]
    have e2 : fmod6 F (.num 1) (.num ((2 : ℝ) ^ F.emin)) (.inf false) = .inf false := by
      unfold fmod6
      rw [if_pos (by simp [FV.le_iff]), if_neg (by simp)]
      simp [Fmt.sub, FV.neg, Fmt.add]
    rw [e2]; rfl

/-- the parity of integers -/
theorem C91_parity_partial (F C : Fmt) (hs : F.Sub C) (il : FV → Option (Ret ℤ)) (h2F : F.Has (.num 2)) (x : ℝ)
    (hx : F.Has (.num x)) (kx : ℤ) (ha : Args C x 2 kx 1) (hix : il (.num |x|) = some (.ret kx))
    (hi2 : il (.num 2) = some (.ret 1)) :
    isOdd F C il (.num x) = some (.ret (decide (∃ n : ℤ, x = ((2 * n + 1 : ℤ) : ℝ)))) ∧
    isEven F C il (.num x) = some (.ret (decide (∃ n : ℤ, x = ((2 * n : ℤ) : ℝ)))) := by
  have h22 : |(2 : ℝ)| = 2 := abs_of_pos (by norm_num)
  have hfin : MathClass.isfinite (.num x) = true := by simp [MathClass.isfinite, MathClass.isnan, MathClass.isinf, FV.neg]
  constructor
  · unfold isOdd
    rw [if_pos hfin]
    have e : (if (FV.num x).lt (.zero false) then (FV.num x).neg else .num x) = .num |x| := by
      simp only [lt_num_zero]
      split_ifs with h
      · rw [abs_of_neg h]; rfl
      · rw [abs_of_nonneg (not_lt.1 h)]
    rw [e]
    have hxa : F.Has (.num |x|) := ⟨abs_ne_zero.2 hx.1, hx.2.1.abs, by rw [abs_abs]; exact hx.2.2⟩
    have haa : Args C |x| 2 kx 1 := ⟨ha.hC, ha.hC2, ⟨abs_ne_zero.2 hx.1, ha.hx.2.1.abs, by rw [abs_abs]; exact ha.hx.2.2⟩, ha.hy,
      isExp_abs ha.ex, ha.ey, ha.h1⟩
    obtain ⟨w, hw, w1, w2, ⟨⟨q, w3⟩, w4, w5⟩, w6⟩ := C91_fmod_partial F C hs il |x| 2 hxa h2F kx 1 haa (by rwa [abs_abs])
      (by rwa [h22])
    rw [hw, bindRet_ret]
    congr 2
    rw [decide_eq_decide, w1.eq_mkv w2, one_eq, eq_mkv]
    have hax := abs_pos.2 hx.1
    have hw0 : 0 ≤ w.val := by
      by_contra hc
      have := mul_neg_of_neg_of_pos (not_le.1 hc) hax
      linarith
    rw [h22, abs_of_nonneg hw0] at w4
    have key : w.val = 1 ↔ ∃ n : ℤ, |x| = ((2 * n + 1 : ℤ) : ℝ) := by
      constructor
      · intro h; exact ⟨q, by rw [w3, h]; push_cast; ring⟩
      · rintro ⟨n, hn⟩
        have h1 : w.val = ((2 * (n - q) + 1 : ℤ) : ℝ) := by rw [w3] at hn; push_cast at hn ⊢; linarith
        rw [h1] at hw0 w4 ⊢
        have h3 : (0 : ℤ) ≤ 2 * (n - q) + 1 := by exact_mod_cast hw0
        have h4 : 2 * (n - q) + 1 < (2 : ℤ) := by exact_mod_cast w4
        have : 2 * (n - q) + 1 = 1 := by omega
        rw [this]; norm_num
    rw [key]
    rcases abs_choice x with h | h <;> rw [h]
    constructor <;> rintro ⟨n, hn⟩ <;> refine ⟨-n - 1, ?_⟩ <;> push_cast at hn ⊢ <;> linarith
  · unfold isEven
    rw [if_pos hfin]
    obtain ⟨w, hw, w1, w2, ⟨⟨q, w3⟩, w4, w5⟩, w6⟩ := C91_fmod_partial F C hs il x 2 hx h2F kx 1 ha hix (by rwa [h22])
    rw [hw, bindRet_ret]
    congr 2
    rw [decide_eq_decide, w1.eq_mkv w2, zero_eq, eq_mkv]
    rw [h22, abs_lt] at w4
    constructor
    · intro h; exact ⟨q, by rw [w3, h]; push_cast; ring⟩
    · rintro ⟨n, hn⟩
      have h1 : w.val = ((2 * (n - q) : ℤ) : ℝ) := by rw [w3] at hn; push_cast at hn ⊢; linarith
      rw [h1] at w4 ⊢
      have h3 : (-2 : ℤ) < 2 * (n - q) := by exact_mod_cast w4.1
      have h4 : 2 * (n - q) < (2 : ℤ) := by exact_mod_cast w4.2
      have : 2 * (n - q) = 0 := by omega
      rw [this]; norm_num

/-- other values: zero is even, and infinities and NaN are neither -/
theorem C91_parity_special (F C : Fmt) (il : FV → Option (Ret ℤ)) (v : FV) (h : v.isFin = false) (s : Bool) :
    isOdd F C il v = some (.ret false) ∧ isEven F C il v = some (.ret false) ∧
    isOdd F C il (.zero s) = some (.ret false) ∧ isEven F C il (.zero s) = some (.ret true) := by
  refine ⟨?_, ?_, ?_, ?_⟩
  · unfold isOdd; rw [if_neg]
    cases v with
    | inf s => cases s <;> simp [MathClass.isfinite, MathClass.isnan, MathClass.isinf, FV.neg]
    | _ => simp_all [MathClass.isfinite, MathClass.isnan, MathClass.isinf, isFin]
  · unfold isEven; rw [if_neg]
    cases v with
    | inf s => cases s <;> simp [MathClass.isfinite, MathClass.isnan, MathClass.isinf, FV.neg]
    | _ => simp_all [MathClass.isfinite, MathClass.isnan, MathClass.isinf, isFin]
  · simp [isOdd, MathClass.isfinite, MathClass.isnan, MathClass.isinf, FV.neg, fmod, bindRet]
  · simp [isEven, MathClass.isfinite, MathClass.isnan, MathClass.isinf, FV.neg, fmod, bindRet]

namespace MathMod

variable {F C : Fmt}

/-- the quotient and the remainder of absolute values, rounded to the nearest quotient -/
def NearAbs (n : ℤ) (r x y : ℝ) : Prop :=
  0 ≤ n ∧ x = n * y + r ∧ 2 * |r| ≤ y ∧ (2 * |r| = y → Even n)

theorem remQuo7_eq {lo hi : ℤ} (hlo : lo ≤ 0) {x y r1 : ℝ} {k : ℤ} (hy0 : 0 < y) (h0 : 0 ≤ r1) (h1 : r1 < y)
    (hx : Rep C.p C.emin |x|) (hy : Rep C.p C.emin y) (hyb : y < (2 : ℝ) ^ C.emax) (hr1 : Rep C.p C.emin r1)
    (q : ℤ) (hq : 0 ≤ q) (hqhi : q + 1 ≤ hi) (e : |x| = q * y + r1) (hle : r1 ≤ |x|) :
    ∃ (r : ℝ) (n : ℤ), remQuo7 C lo hi (.num x) (mkv false y) k q (mkv false r1) (C.add (mkv false r1) (mkv false r1)) =
      some (signed x r, n % 8 * k) ∧ NearAbs n r |x| y := by
  -- the test
  have hrep2 : Rep C.p C.emin (r1 + r1) := by
    obtain ⟨m, f, hf, hm, hz⟩ := hr1
    exact ⟨m, f + 1, by omega, hm, by rw [zpow_add₀ (by norm_num), zpow_one, hz]; ring⟩
  have htest : ((mkv false y).lt (C.add (mkv false r1) (mkv false r1)) ∨
      (C.add (mkv false r1) (mkv false r1)).eq (mkv false y) ∧ q % 2 ≠ 0) ↔ (y < 2 * r1 ∨ 2 * r1 = y ∧ q % 2 ≠ 0) := by
    by_cases hb : |r1 + r1| < (2 : ℝ) ^ C.emax
    · rw [add_pos_mkv h0 h0 hrep2 hb, lt_mkv, eq_mkv]
      constructor <;> intro h
      · rcases h with h | ⟨h, h'⟩
        · left; linarith
        · exact .inr ⟨by linarith, h'⟩
      · rcases h with h | ⟨h, h'⟩
        · left; linarith
        · exact .inr ⟨by linarith, h'⟩
    · have hb' := not_lt.1 hb
      rw [abs_of_nonneg (by linarith)] at hb'
      have hr0 : r1 ≠ 0 := by
        rintro rfl
        have : (0 : ℝ) < (2 : ℝ) ^ C.emax := by positivity
        linarith
      have ei : C.add (mkv false r1) (mkv false r1) = .inf false := by
        rw [mkv_num _ hr0]
        show C.ofReal (decide (r1 + r1 < 0)) (r1 + r1) = _
        unfold ofReal
        rw [rnd_of_rep hrep2, if_neg (by intro h; apply hr0; linarith), if_pos (not_lt.1 hb),
          decide_eq_false (not_lt.2 (by linarith))]
      rw [ei, mkv_num _ (ne_of_gt hy0)]
      simp only [lt_num_inf, eq_inf_num]
      constructor <;> intro _
      · left; linarith
      · simp
  unfold remQuo7
  by_cases hc : y < 2 * r1 ∨ 2 * r1 = y ∧ q % 2 ≠ 0
  · rw [if_pos (htest.2 hc)]
    have hge : y ≤ 2 * r1 := by rcases hc with h | ⟨h, -⟩ <;> linarith
    have e' : r1 - y = |x| - ((q + 1 : ℤ) : ℝ) * y := by push_cast; linarith
    have hab : |r1 - y| = y - r1 := by rw [abs_of_nonpos (by linarith)]; ring
    have hr : Rep C.p C.emin (r1 - y) := hx.rem hy (q + 1) e' (by rw [abs_abs, hab]; linarith) (by
      rw [abs_of_pos hy0, hab]; linarith)
    obtain ⟨u, hu⟩ := sub_mkv (F := C) (s := false) (t := false) (a := r1) (b := y) hr (by rw [hab]; linarith)
    have hne : r1 - y ≠ 0 := by linarith
    rw [hu, mkv_num u hne, ← mkv_num false hne]
    unfold inTo
    rw [if_pos (show lo ≤ q + 1 ∧ q + 1 ≤ hi from ⟨by omega, by omega⟩), Option.map_some]
    refine ⟨r1 - y, q + 1, ?_, by omega, by linarith, by rw [hab]; linarith, ?_⟩
    · unfold signed; simp only [lt_num_zero]
    · rw [hab]
      intro heq
      rcases hc with h | ⟨-, h⟩
      · exfalso; linarith
      · rw [Int.even_iff]; omega
  · rw [if_neg (fun h => hc (htest.1 h))]
    push Not at hc
    refine ⟨r1, q, ?_, hq, e, by rw [abs_of_nonneg h0]; exact hc.1, ?_⟩
    · unfold signed; simp only [lt_num_zero]
    · rw [abs_of_nonneg h0]
      intro heq
      rw [Int.even_iff]
      exact hc.2 heq

theorem remQuo6_eq {lo hi : ℤ} (hlo : lo ≤ 0) {x y R : ℝ} {k : ℤ} (hy0 : 0 < y) (h0 : 0 ≤ R) (h2 : R < 2 * y)
    (hx : Rep C.p C.emin |x|) (hy : Rep C.p C.emin y) (hyb : y < (2 : ℝ) ^ C.emax) (hR : Rep C.p C.emin R)
    (q : ℤ) (hq : 0 ≤ q) (e : |x| = q * y + R) (hle : R ≤ |x|) (hhi : |x| < hi * y) :
    ∃ (r : ℝ) (n : ℤ), remQuo6 C lo hi (.num x) (mkv false y) k q (mkv false R) =
      some (signed x r, n % 8 * k) ∧ NearAbs n r |x| y := by
  have hqhi : q + 1 ≤ hi := by
    by_contra hc
    have h1 : (hi : ℝ) ≤ q := by exact_mod_cast (by omega : hi ≤ q)
    have := mul_le_mul_of_nonneg_right h1 (le_of_lt hy0)
    linarith
  unfold remQuo6
  simp only [le_mkv]
  by_cases hc : y ≤ R
  · rw [if_pos hc]
    have e' : R - y = |x| - ((q + 1 : ℤ) : ℝ) * y := by push_cast; linarith
    have h1 : |R - y| < y := by rw [abs_of_nonneg (by linarith)]; linarith
    have hr : Rep C.p C.emin (R - y) := hx.rem hy (q + 1) e'
      (by rw [abs_abs, abs_of_nonneg (by linarith)]; linarith) (by rw [abs_of_pos hy0]; exact le_of_lt h1)
    rw [sub_pos_mkv hc (ne_of_gt hy0) hr (by linarith)]
    have hqhi2 : q + 1 + 1 ≤ hi := by
      by_contra hc'
      have h1 : (hi : ℝ) ≤ q + 1 := by exact_mod_cast (by omega : hi ≤ q + 1)
      have := mul_le_mul_of_nonneg_right h1 (le_of_lt hy0)
      linarith
    unfold inTo
    rw [if_pos ⟨by omega, by omega⟩, Option.bind_some]
    exact remQuo7_eq hlo hy0 (by linarith) (by linarith) hx hy hyb hr (q + 1) (by omega) hqhi2 (by rw [e']; ring) (by linarith)
  · rw [if_neg hc]
    exact remQuo7_eq hlo hy0 h0 (not_le.1 hc) hx hy hyb hR q hq hqhi e hle

theorem remQuo2_eq {lo hi : ℤ} (hlo : lo ≤ 0) {x y : ℝ} {k kx ky : ℤ} (h : Args C x y kx ky) (hhi : |x| < hi * |y|) :
    ∃ (r : ℝ) (n : ℤ), remQuo2 C lo hi (.num x) (mkv false |y|) k (mkv false |x|) kx ky =
      some (signed x r, n % 8 * k) ∧ NearAbs n r |x| |y| := by
  have hy0 := abs_pos.2 h.hy.1
  have hx0 := abs_pos.2 h.hx.1
  have hhi0 : 1 ≤ hi := by
    by_contra hc
    have h1 : (hi : ℝ) ≤ 0 := by exact_mod_cast (by omega : hi ≤ 0)
    nlinarith
  unfold remQuo2
  by_cases hn : kx - ky < 0
  · rw [if_pos hn]
    have hlt : |x| < |y| := lt_of_lt_of_le h.ex.2 (le_trans (zpow_le_zpow_right₀ (by norm_num) (by omega)) h.ey.1)
    exact remQuo7_eq hlo hy0 (le_of_lt hx0) hlt h.hx.2.1.abs h.hy.2.1.abs h.hy.2.2 h.hx.2.1.abs 0 (le_refl _) (by omega)
      (by simp) (le_refl _)
  rw [if_neg hn]
  have hk : ky ≤ kx := by omega
  by_cases hz : kx - ky ≠ 0
  · rw [if_pos hz]
    obtain ⟨s1, s2, hS⟩ := h.state hk
    obtain ⟨X', q, h1, h2, h3, -⟩ := remQuo5_eq lo hi hlo (.num x) (mkv false |y|) k ky (kx - ky).toNat 0 (le_refl _) _ _ hS
    have e := Args.eqn hk q h2
    have hkx := (exp_range (F := C) h.hx h.ex).2
    obtain ⟨f1, f2, f3⟩ := finish h.hx.2.1.abs h.hy.2.1.abs h1 (2 * q) e h.h1 (by omega) (exp_range (F := C) h.hy h.ey).1 h.hC2
    have hp : (0 : ℝ) < (2 : ℝ) ^ ky := by positivity
    have hq : (0 : ℝ) ≤ ((2 * q : ℤ) : ℝ) * |y| := by positivity
    have hR0 := mul_nonneg h1.x0 (le_of_lt hp)
    have hqhi : (0 : ℤ) * 2 ^ (kx - ky).toNat + 2 * q ≤ hi := by
      by_contra hc
      have h1 : (hi : ℝ) ≤ ((2 * q : ℤ) : ℝ) := by exact_mod_cast (by omega : hi ≤ 2 * q)
      have := mul_le_mul_of_nonneg_right h1 (le_of_lt hy0)
      linarith
    rw [s1, Option.bind_some, s2, Option.bind_some, h3 hqhi, f1, Option.bind_some, zero_mul, zero_add]
    exact remQuo6_eq hlo hy0 hR0 (by
        have := mul_lt_mul_of_pos_right h1.lt hp
        have h3 : (2 : ℝ) ^ (-ky) * (2 : ℝ) ^ ky = 1 := by rw [← zpow_add₀ (by norm_num)]; simp
        have h4 : 2 * (|y| * (2 : ℝ) ^ (-ky)) * (2 : ℝ) ^ ky = 2 * |y| := by linear_combination 2 * |y| * h3
        linarith)
      h.hx.2.1.abs h.hy.2.1.abs h.hy.2.2 f2 (2 * q) (by omega) (by linarith) (by linarith) hhi
  · rw [if_neg hz]
    have hkk : kx = ky := by omega
    exact remQuo6_eq hlo hy0 (le_of_lt hx0) (by
        have a := h.ex.2
        have b := h.ey.1
        rw [hkk, zpow_add₀ (by norm_num), zpow_one] at a
        linarith)
      h.hx.2.1.abs h.hy.2.1.abs h.hy.2.2 h.hx.2.1.abs 0 (le_refl _) (by simp) (le_refl _) hhi

/-- the accumulated quotient overflows -/
theorem remQuo2_none {lo hi : ℤ} (hlo : lo ≤ 0) (hhi0 : 0 ≤ hi) {x y : ℝ} {k kx ky : ℤ} (h : Args C x y kx ky)
    (hhi : (hi + 2) * |y| ≤ |x|) :
    remQuo2 C lo hi (.num x) (mkv false |y|) k (mkv false |x|) kx ky = none := by
  have hy0 := abs_pos.2 h.hy.1
  have hhi0' : (0 : ℝ) ≤ hi := by exact_mod_cast hhi0
  have hk : ky + 1 ≤ kx := by
    have h1 : (2 : ℝ) ^ (ky + 1) < (2 : ℝ) ^ (kx + 1) := by
      refine lt_of_le_of_lt ?_ h.ex.2
      rw [zpow_add₀ (by norm_num), zpow_one]
      nlinarith [h.ey.1]
    have := (zpow_lt_zpow_iff_right₀ (by norm_num : (1 : ℝ) < 2)).1 h1
    omega
  unfold remQuo2
  rw [if_neg (by omega), if_pos (by omega)]
  obtain ⟨s1, s2, hS⟩ := h.state (by omega)
  obtain ⟨X', q, h1, h2, -, h3⟩ := remQuo5_eq lo hi hlo (.num x) (mkv false |y|) k ky (kx - ky).toNat 0 (le_refl _) _ _ hS
  have e := Args.eqn (by omega) q h2
  have hp : (0 : ℝ) < (2 : ℝ) ^ ky := by positivity
  have hlt : X' * (2 : ℝ) ^ ky < 2 * |y| := by
    have := mul_lt_mul_of_pos_right h1.lt hp
    have h3 : (2 : ℝ) ^ (-ky) * (2 : ℝ) ^ ky = 1 := by rw [← zpow_add₀ (by norm_num)]; simp
    have h4 : 2 * (|y| * (2 : ℝ) ^ (-ky)) * (2 : ℝ) ^ ky = 2 * |y| := by linear_combination 2 * |y| * h3
    linarith
  have hgt : hi < 0 * 2 ^ (kx - ky).toNat + 2 * (q : ℤ) := by
    by_contra hc
    have h5 : ((2 * q : ℤ) : ℝ) ≤ hi := by exact_mod_cast (by omega : 2 * (q : ℤ) ≤ hi)
    have := mul_le_mul_of_nonneg_right h5 (le_of_lt hy0)
    linarith
  rw [s1, Option.bind_some, s2, Option.bind_some, h3 hhi0 hgt]

theorem remQuo_num {il : FV → Option (Ret ℤ)} {lo hi : ℤ} {x y : ℝ} {kx ky : ℤ} (hs : F.Sub C) (hx : F.Has (.num x))
    (hy : F.Has (.num y)) (hix : il (.num |x|) = some (.ret kx)) (hiy : il (.num |y|) = some (.ret ky)) :
    remQuo F C il lo hi (.num x) (.num y) =
      bindRet ((remQuo2 C lo hi (.num x) (mkv false |y|) (if decide (x < 0) != decide (y < 0) then -1 else 1) (mkv false |x|)
        kx ky).map .ret) fun r => some (.ret (F.cvt r.1, r.2)) := by
  have hx0 := hx.1
  have hy0 := hy.1
  unfold remQuo
  simp only [MathClass.isnan, eq_num_num, eq_num_zero, eq_num_inf, hx0, hy0, decide_true, Bool.not_true,
    Bool.false_eq_true, if_false, or_self]
  rw [cvt_num (hs.rep hx.2.1) (hs.lt hx.2.2) hx0, cvt_num (hs.rep hy.2.1) (hs.lt hy.2.2) hy0]
  unfold remQuoImpl
  simp only [abs_eq x hx0, abs_eq y hy0]
  rw [mkv_num _ (abs_ne_zero.2 hx0), mkv_num _ (abs_ne_zero.2 hy0), hix, bindRet_ret, hiy, bindRet_ret]
  congr 3
  simp [MathClass.signbit, MathClass.isnan]

end MathMod

/-- `rem_quo` gives the nearest quotient, of which the sign and the last three bits, and the exact remainder, if the
quotient is less than the limit of its type. Missing: see `C91_rem_quo_refuted`. -/
theorem C91_rem_quo_partial (F C : Fmt) (hs : F.Sub C) (il : FV → Option (Ret ℤ)) (lo hi : ℤ) (hlo : lo ≤ 0) (x y : ℝ)
    (hx : F.Has (.num x)) (hy : F.Has (.num y)) (kx ky : ℤ) (ha : Args C x y kx ky) (hix : il (.num |x|) = some (.ret kx))
    (hiy : il (.num |y|) = some (.ret ky)) (hhi : |x| < hi * |y|) :
    ∃ w n, remQuo F C il lo hi (.num x) (.num y) = some (.ret (w, n.sign * (|n| % 8))) ∧ F.Has w ∧ w.isFin ∧
      IsNearRem n w.val x y ∧ (w.val = 0 → w.sgn = decide (x < 0)) := by
  obtain ⟨r, m, h1, hm, e, h2, h3⟩ := remQuo2_eq (k := if decide (x < 0) != decide (y < 0) then -1 else 1) hlo ha hhi
  have hx0 := hx.1
  have hy0 := hy.1
  have hax := abs_pos.2 hx0
  have hay := abs_pos.2 hy0
  have hrx : |r| ≤ |x| := by
    rcases eq_or_lt_of_le hm with h0 | h0
    · rw [← h0] at e; simp at e; rw [← e, abs_abs]
    · have h5 : (1 : ℝ) ≤ m := by exact_mod_cast h0
      have := neg_abs_le r
      nlinarith
  have hr : Rep F.p F.emin r := hx.2.1.abs.rem hy.2.1.abs m (by linarith) (by rwa [abs_abs]) (by rw [abs_abs]; linarith [abs_nonneg r])
  obtain ⟨g1, g2, g3⟩ := has_signed (F := F) (x := x) hr (by have := hy.2.2; linarith [abs_nonneg r])
  have hval : (signed x r).val = if x < 0 then -r else r := by rw [signed_eq, val_mkv]
  have habs : |(if x < 0 then -r else r)| = |r| := by split_ifs; exacts [abs_neg r, rfl]
  have hsg : (signed x r).val = 0 → (signed x r).sgn = decide (x < 0) := by
    intro h0
    rw [hval] at h0
    rw [signed_eq, sgn_mkv, if_pos h0]
  have hsgn : ∀ j : ℤ, 0 ≤ j → (-j).sign * (|-j| % 8) = j % 8 * -1 ∧ j.sign * (|j| % 8) = j % 8 * 1 := by
    intro j hj
    rcases eq_or_lt_of_le hj with h | h
    · subst h; simp
    · rw [abs_neg, abs_of_pos h, Int.sign_neg, Int.sign_eq_one_of_pos h]; omega
  have hmain : ∀ n : ℤ, (n = m ∧ (decide (x < 0) != decide (y < 0)) = false ∨ n = -m ∧ (decide (x < 0) != decide (y < 0)) = true) →
      x = n * y + (if x < 0 then -r else r) →
      ∃ w n, remQuo F C il lo hi (.num x) (.num y) = some (.ret (w, n.sign * (|n| % 8))) ∧ F.Has w ∧ w.isFin ∧
      IsNearRem n w.val x y ∧ (w.val = 0 → w.sgn = decide (x < 0)) := by
    intro n hn hxe
    refine ⟨signed x r, n, ?_, g1, g2, ⟨by rw [hval]; exact hxe, by rw [hval, habs]; exact h2, ?_⟩, hsg⟩
    · rw [remQuo_num hs hx hy hix hiy, h1, Option.map_some, bindRet_ret, g3]
      rcases hn with ⟨rfl, hn⟩ | ⟨rfl, hn⟩
      · simp only [hn, Bool.false_eq_true, if_false]; rw [(hsgn _ hm).2]
      · simp only [hn, if_true]; rw [(hsgn _ hm).1]
    · rw [hval, habs]
      intro heq
      rcases hn with ⟨rfl, -⟩ | ⟨rfl, -⟩
      · exact h3 heq
      · exact (h3 heq).neg
  rcases lt_or_gt_of_ne hx0 with hxs | hxs <;> rcases lt_or_gt_of_ne hy0 with hys | hys
  · rw [abs_of_neg hxs, abs_of_neg hys] at e
    exact hmain m (.inl ⟨rfl, by simp [hxs, hys]⟩) (by rw [if_pos hxs]; linarith)
  · rw [abs_of_neg hxs, abs_of_pos hys] at e
    exact hmain (-m) (.inr ⟨rfl, by simp [hxs, le_of_lt hys]⟩) (by rw [if_pos hxs]; push_cast; linarith)
  · rw [abs_of_pos hxs, abs_of_neg hys] at e
    exact hmain (-m) (.inr ⟨rfl, by simp [le_of_lt hxs, hys]⟩) (by rw [if_neg (not_lt.2 (le_of_lt hxs))]; push_cast; linarith)
  · rw [abs_of_pos hxs, abs_of_pos hys] at e
    exact hmain m (.inl ⟨rfl, by simp [not_lt.2 (le_of_lt hxs), not_lt.2 (le_of_lt hys)]⟩) (by rw [if_neg (not_lt.2 (le_of_lt hxs))]; linarith)

/-- `remainder` and `quotient` are the parts of the result -/
theorem C91_remainder_quotient (F C : Fmt) (il : FV → Option (Ret ℤ)) (lo hi : ℤ) (x y : ℝ) (hx : F.Has (.num x))
    (hy : F.Has (.num y)) :
    remainder F C il (.num x) (.num y) = bindRet (remQuo F C il minInt maxInt (.num x) (.num y)) (fun r => some (.ret r.1)) ∧
    quotient F C il lo hi (.num x) (.num y) = bindRet (remQuo F C il lo hi (.num x) (.num y)) (fun r => some (.ret r.2)) := by
  have hx0 := hx.1
  have hy0 := hy.1
  constructor
  · unfold remainder
    simp [MathClass.isnan, hx0, hy0]
  · unfold quotient
    simp [MathClass.isnan, hx0, hy0]

/-- The quotient, of which only three bits are kept, is accumulated in the type of the result and overflows, so that
`remainder` is not defined if it exceeds the range of `int`. -/
theorem C91_rem_quo_refuted (F C : Fmt) (hs : F.Sub C) (il : FV → Option (Ret ℤ)) (x y : ℝ) (hx : F.Has (.num x))
    (hy : F.Has (.num y)) (kx ky : ℤ) (ha : Args C x y kx ky) (hix : il (.num |x|) = some (.ret kx))
    (hiy : il (.num |y|) = some (.ret ky)) (hhi : (2 ^ 31 + 1) * |y| ≤ |x|) :
    remQuo F C il minInt maxInt (.num x) (.num y) = none ∧ remainder F C il (.num x) (.num y) = none ∧
    quotient F C il minInt maxInt (.num x) (.num y) = none := by
  have h : remQuo F C il minInt maxInt (.num x) (.num y) = none := by
    rw [remQuo_num hs hx hy hix hiy, remQuo2_none (by decide) (by decide) ha]
    · rfl
    · unfold maxInt
      push_cast
      linarith
  obtain ⟨h1, h2⟩ := C91_remainder_quotient F C il minInt maxInt x y hx hy
  rw [h1, h2, h]
  exact ⟨rfl, rfl, rfl⟩

/-- the arguments 7 and 2 of `double`, whose exponents are 2 and 1 -/
theorem args72 : Args double 7 2 2 1 := by
  have hE : (7 : ℝ) < (2 : ℝ) ^ double.emax := by
    calc (7 : ℝ) < (2 : ℝ) ^ (3 : ℤ) := by norm_num
      _ ≤ _ := zpow_le_zpow_right₀ (by norm_num) (by decide)
  refine ⟨by decide, by decide, ⟨by norm_num, ⟨7, 0, by decide, by decide, by norm_num⟩, by rwa [abs_of_pos (by norm_num)]⟩,
    ⟨by norm_num, ⟨2, 0, by decide, by decide, by norm_num⟩, by rw [abs_of_pos (by norm_num)]; linarith⟩,
    ⟨?_, ?_⟩, ⟨?_, ?_⟩, by decide⟩ <;> rw [abs_of_pos (by norm_num)] <;> norm_num

/-- 7 = 4 * 2 - 1: the quotient 3.5 is rounded to the even 4; and the remainder of `fmod` is 1 -/
example : IsNearRem 4 (-1) 7 2 ∧ ¬ IsNearRem 3 1 7 2 ∧ IsRem 1 7 2 := by
  refine ⟨⟨by norm_num, by norm_num, fun _ => by decide⟩, ?_, ⟨⟨3, by norm_num⟩, by norm_num, by norm_num⟩⟩
  rintro ⟨-, -, h⟩
  have h1 := h (by norm_num)
  revert h1
  decide

/-- special values of `rem_quo`, `remainder` and `quotient`: NaN if there is no remainder, otherwise the first argument -/
theorem C91_rem_quo_special (F C : Fmt) (il : FV → Option (Ret ℤ)) (lo hi : ℤ) (x y : FV) (hx : F.Has x) (hy : F.Has y) :
    (x = .nan ∨ y = .nan ∨ (∃ s, x = .inf s) ∨ (∃ s, y = .zero s) → remQuo F C il lo hi x y = some (.ret (.nan, 0)) ∧
      remainder F C il x y = some (.ret .nan) ∧ quotient F C il lo hi x y = some (.ret 0)) ∧
    ((∃ s, x = .zero s) ∧ ((∃ t, y = .inf t) ∨ ∃ z, y = .num z) ∨ (∃ z, x = .num z) ∧ (∃ t, y = .inf t) →
      remQuo F C il lo hi x y = some (.ret (x, 0)) ∧
      remainder F C il x y = some (.ret x) ∧ quotient F C il lo hi x y = some (.ret 0)) := by
  refine ⟨?_, ?_⟩
  · rintro (rfl | rfl | ⟨s, rfl⟩ | ⟨s, rfl⟩)
    · cases y <;> simp [remQuo, remainder, quotient, MathClass.isnan]
    · cases x <;> simp [remQuo, remainder, quotient, MathClass.isnan]
    · cases y <;> cases s <;> simp [remQuo, remainder, quotient, MathClass.isnan]
    · cases x with
      | inf t => cases t <;> simp [remQuo, remainder, quotient, MathClass.isnan]
      | _ => simp [remQuo, remainder, quotient, MathClass.isnan]
  · rintro (⟨⟨s, rfl⟩, ⟨t, rfl⟩ | ⟨z, rfl⟩⟩ | ⟨⟨z, rfl⟩, t, rfl⟩)
    · cases t <;> simp [remQuo, remainder, quotient, MathClass.isnan]
    · have := hy.1
      simp [remQuo, remainder, quotient, MathClass.isnan, this]
    · have := hx.1
      cases t <;> simp [remQuo, remainder, quotient, MathClass.isnan, this]

/-- `rem_quo<int>(7, 2)` of `double` is (-1, 4) if the exponents are right -/
example (il : FV → Option (Ret ℤ)) (h7 : il (.num 7) = some (.ret 2)) (h2 : il (.num 2) = some (.ret 1)) :
    remQuo double double il minInt maxInt (.num 7) (.num 2) = some (.ret (.num (-1), 4)) := by
  obtain ⟨w, n, h, hw, hf, ⟨e, hr, he⟩, -⟩ := C91_rem_quo_partial double double ⟨le_refl _, le_refl _, le_refl _⟩ il minInt maxInt (by decide) 7 2
    args72.hx args72.hy 2 1 args72 (by rwa [abs_of_pos (by norm_num)]) (by rwa [abs_of_pos (by norm_num)])
    (by rw [abs_of_pos (by norm_num), abs_of_pos (by norm_num)]; norm_num [maxInt])
  rw [abs_of_pos (by norm_num : (0 : ℝ) < 2)] at hr he
  have hb := abs_le.1 (show |w.val| ≤ 1 by linarith)
  have hn : n = 3 ∨ n = 4 := by
    have a : (n : ℝ) ≤ 4 := by linarith [hb.1]
    have b : (3 : ℝ) ≤ n := by linarith [hb.2]
    have a' : n ≤ 4 := by exact_mod_cast a
    have b' : 3 ≤ n := by exact_mod_cast b
    omega
  rcases hn with rfl | rfl
  · have hv : w.val = 1 := by push_cast at e; linarith
    have h3 := he (by rw [hv]; norm_num)
    exact absurd h3 (by decide)
  · have hv : w.val = -1 := by push_cast at e; linarith
    have hw' : w = .num (-1) := by
      cases w with
      | num z => exact congrArg _ hv
      | zero s => exfalso; revert hv; simp [FV.val]
      | inf s => simp [FV.isFin] at hf
      | nan => simp [FV.isFin] at hf
    rw [h, hw']
    rfl

end Sprout
