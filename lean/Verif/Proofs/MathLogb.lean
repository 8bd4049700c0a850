import Mathlib.Analysis.SpecialFunctions.Log.Base
import Verif.Proofs.MathScale
import Verif.Props.C87

/-! # Lemmas on the exponent of a floating value -/

namespace Sprout

open Classical FV Fmt MathRound

/-- `k` is the exponent of `x` -/
def IsExp (k : ℤ) (x : ℝ) : Prop := (2 : ℝ) ^ k ≤ |x| ∧ |x| < (2 : ℝ) ^ (k + 1)

namespace MathScale

variable {F C : Fmt}

theorem isTrunc_unique {a b x : ℝ} (ha : IsTrunc a x) (hb : IsTrunc b x) : a = b := by
  obtain ⟨⟨m, rfl⟩, a1, a2, a3⟩ := ha
  obtain ⟨⟨n, rfl⟩, b1, b2, b3⟩ := hb
  have h1 : |(m : ℝ)| < |(n : ℝ)| + 1 := by linarith
  have h2 : |(n : ℝ)| < |(m : ℝ)| + 1 := by linarith
  have h1' : |m| < |n| + 1 := by exact_mod_cast h1
  have h2' : |n| < |m| + 1 := by exact_mod_cast h2
  have h3 : |m| = |n| := by omega
  rcases abs_eq_abs.1 h3 with h | h
  · rw [h]
  · rcases eq_or_ne n 0 with rfl | hn
    · simp at h; rw [h]
    · exfalso
      have hx : x ≠ 0 := by
        rintro rfl
        have : |(n : ℝ)| ≤ 0 := by simpa using b1
        have := abs_nonpos_iff.1 this
        exact hn (by exact_mod_cast this)
      have hn' : (n : ℝ) ≠ 0 := by exact_mod_cast hn
      rw [h] at a3
      push_cast at a3
      have h4 : (n : ℝ) * x = 0 := by linarith
      exact (mul_ne_zero hn' hx) h4

theorem isTrunc_int {n m : ℤ} (h : IsTrunc (n : ℝ) (m : ℝ)) : n = m := by
  have : IsTrunc (m : ℝ) (m : ℝ) := ⟨⟨m, rfl⟩, le_refl _, by linarith, mul_self_nonneg _⟩
  exact_mod_cast isTrunc_unique h this

theorem isTrunc_exists (x : ℝ) : ∃ t : ℤ, IsTrunc t x := by
  rcases le_or_gt 0 x with h | h
  · have h1 := Int.floor_le x
    have h2 := Int.lt_floor_add_one x
    have h3 : (0 : ℝ) ≤ ⌊x⌋ := by exact_mod_cast Int.floor_nonneg.2 h
    refine ⟨⌊x⌋, ⟨_, rfl⟩, ?_, ?_, mul_nonneg h3 h⟩ <;> rw [abs_of_nonneg h3, abs_of_nonneg h] <;> assumption
  · have h1 := Int.le_ceil x
    have h2 := Int.ceil_lt_add_one x
    have h3 : ((⌈x⌉ : ℤ) : ℝ) ≤ 0 := by exact_mod_cast Int.ceil_nonpos.2 (le_of_lt h)
    refine ⟨⌈x⌉, ⟨_, rfl⟩, ?_, ?_, mul_nonneg_of_nonpos_of_nonpos h3 (le_of_lt h)⟩ <;>
      rw [abs_of_nonpos h3, abs_of_nonpos (le_of_lt h)] <;> linarith

theorem isTrunc_between {t k : ℤ} {x : ℝ} (h : IsTrunc t x) (h1 : (k : ℝ) ≤ x) (h2 : x ≤ k + 1) : t = k ∨ t = k + 1 := by
  obtain ⟨-, a1, a2, a3⟩ := h
  rcases le_or_gt 0 k with hk | hk
  · have hk' : (0 : ℝ) ≤ k := by exact_mod_cast hk
    have hx : 0 ≤ x := le_trans hk' h1
    rw [abs_of_nonneg hx] at a1 a2
    have b1 : |(t : ℝ)| ≤ k + 1 := by linarith
    have b2 : (k : ℝ) < |(t : ℝ)| + 1 := by linarith
    have c1 : |t| ≤ k + 1 := by exact_mod_cast b1
    have c2 : k < |t| + 1 := by exact_mod_cast b2
    have c3 : 0 ≤ t ∨ t < 0 := by omega
    rcases c3 with c3 | c3
    · rw [abs_of_nonneg c3] at c1 c2; omega
    · exfalso
      have c3' : (t : ℝ) < 0 := by exact_mod_cast c3
      have : x = 0 := by
        rcases eq_or_lt_of_le hx with h | h
        · exact h.symm
        · have := mul_neg_of_neg_of_pos c3' h; linarith
      rw [this] at a1
      have := abs_nonpos_iff.1 a1
      linarith
  · have hk' : (k : ℝ) + 1 ≤ 0 := by exact_mod_cast hk
    have hx : x ≤ 0 := by linarith
    rw [abs_of_nonpos hx] at a1 a2
    have b1 : |(t : ℝ)| ≤ -k := by linarith
    have b2 : -((k : ℝ) + 1) < |(t : ℝ)| + 1 := by linarith
    have c1 : |t| ≤ -k := by exact_mod_cast b1
    have c2 : -(k + 1) < |t| + 1 := by exact_mod_cast b2
    have c3 : t ≤ 0 ∨ 0 < t := by omega
    rcases c3 with c3 | c3
    · rw [abs_of_nonpos c3] at c1 c2; omega
    · exfalso
      have c3' : (0 : ℝ) < t := by exact_mod_cast c3
      have : x = 0 := by
        rcases eq_or_lt_of_le hx with h | h
        · exact h
        · have := mul_neg_of_pos_of_neg c3' h; linarith
      rw [this] at a1
      rw [neg_zero] at a1
      have := abs_nonpos_iff.1 a1
      linarith

theorem div_num (a b : ℝ) : C.div (.num a) (.num b) = C.ofReal (decide (a < 0) != decide (b < 0)) (a / b) := rfl

theorem sig_bounds {x : ℝ} {k : ℤ} (hx : 0 < x) (hk : IsExp k x) (t : ℤ) :
    (2 : ℝ) ^ (k - t) ≤ x * (2 : ℝ) ^ (-t) ∧ x * (2 : ℝ) ^ (-t) < (2 : ℝ) ^ (k - t + 1) := by
  obtain ⟨h1, h2⟩ := hk
  rw [abs_of_pos hx] at h1 h2
  have hp : (0 : ℝ) < (2 : ℝ) ^ (-t) := by positivity
  constructor
  · rw [sub_eq_add_neg, zpow_add₀ (by norm_num)]
    exact mul_le_mul_of_nonneg_right h1 (le_of_lt hp)
  · rw [show k - t + 1 = (k + 1) + -t by ring, zpow_add₀ (by norm_num)]
    exact mul_lt_mul_of_pos_right h2 hp

/-- division by a power of two near the number is exact -/
theorem div_near {x : ℝ} (hx : 0 < x) (hr : Rep C.p C.emin x) {k t : ℤ} (hk : IsExp k x) (ht : t ≤ k + 1) (ht2 : k ≤ t + 1) :
    C.div (.num x) (.num ((2 : ℝ) ^ t)) = .num (x * (2 : ℝ) ^ (-t)) := by
  have hp : (0 : ℝ) < (2 : ℝ) ^ t := by positivity
  obtain ⟨h1, h2⟩ := sig_bounds hx hk t
  have hpos : 0 < x * (2 : ℝ) ^ (-t) := by positivity
  have e : x / (2 : ℝ) ^ t = x * (2 : ℝ) ^ (-t) := by rw [zpow_neg, div_eq_mul_inv]
  rw [div_num, e]
  have hmin := C.emin_le
  have hp2 := C.two_le_p
  refine ofReal_num (hr.scale _ (le_refl _) ?_) ?_ (ne_of_gt hpos)
  · rw [abs_of_pos hpos]
    refine le_trans (zpow_le_zpow_right₀ (by norm_num) ?_) h1
    omega
  · rw [abs_of_pos hpos]
    refine lt_of_lt_of_le h2 (zpow_le_zpow_right₀ (by norm_num) ?_)
    have := C.emax_pos; omega

theorem mul_step {t : ℤ} (hm : C.emin ≤ t) (h : t + 1 < C.emax) :
    C.mul (.num ((2 : ℝ) ^ t)) (.num 2) = .num ((2 : ℝ) ^ (t + 1)) := by
  rw [mul_num, show (2 : ℝ) ^ t * 2 = (2 : ℝ) ^ (t + 1) by rw [zpow_add₀ (by norm_num), zpow_one]]
  exact ofReal_zpow (by omega) h

theorem div_step {t : ℤ} (hm : C.emin ≤ t - 1) (h : t - 1 < C.emax) :
    C.div (.num ((2 : ℝ) ^ t)) (.num 2) = .num ((2 : ℝ) ^ (t - 1)) := by
  rw [div_num, show (2 : ℝ) ^ t / 2 = (2 : ℝ) ^ (t - 1) by rw [zpow_sub₀ (by norm_num), zpow_one]]
  exact ofReal_zpow hm h

/-- one step of correction -/
theorem logb3_eq {x : ℝ} (hx : 0 < x) (hr : Rep C.p C.emin x) {k t : ℤ} (hk : IsExp k x)
    (hmin : C.emin ≤ k) (hmax : k < C.emax) (ht : t ≤ k + 1) (ht2 : k ≤ t + 1)
    (hrk : Rep C.p C.emin (k : ℝ)) (hbk : |(k : ℝ)| < (2 : ℝ) ^ C.emax) (h3 : C.emin ≤ t) (s : Bool) :
    ∃ u, logb3 C (.num x) (.num ((2 : ℝ) ^ t)) (C.div (.num x) (.num ((2 : ℝ) ^ t))) (mkv s t) = some (mkv u k) := by
  have hd := div_near hx hr hk (t := k) (by omega) (by omega)
  obtain ⟨b1, b2⟩ := sig_bounds hx hk k
  rw [sub_self, zpow_zero] at b1
  rw [sub_self, zero_add, zpow_one] at b2
  rw [div_near hx hr hk ht ht2]
  obtain ⟨h1, h2⟩ := sig_bounds hx hk t
  unfold logb3
  simp only [lt_num_num]
  have hcase : t = k ∨ t = k + 1 ∨ t = k - 1 := by omega
  rcases hcase with rfl | rfl | rfl
  · rw [if_neg (by linarith), if_neg (by simpa using b2)]
    exact ⟨s, rfl⟩
  · rw [if_pos]
    · rw [div_step (by omega) (by omega), show k + 1 - 1 = k by ring, hd]
      rw [logbLo.eq_def]
      simp only [lt_num_num]
      rw [if_neg (by linarith), one_eq]
      have e : ((k + 1 : ℤ) : ℝ) - 1 = k := by push_cast; ring
      obtain ⟨u, hu⟩ := sub_mkv (F := C) (s := s) (t := false) (a := ((k + 1 : ℤ) : ℝ)) (b := 1) (by rwa [e]) (by rwa [e])
      exact ⟨u, by rw [hu, e]⟩
    · refine lt_of_lt_of_le h2 ?_
      rw [show k - (k + 1) + 1 = 0 by ring, zpow_zero]
  · have hge : 2 ≤ x * (2 : ℝ) ^ (-(k - 1)) := by
      refine le_trans ?_ h1
      rw [show k - (k - 1) = 1 by ring, zpow_one]
    rw [if_neg (by linarith), if_pos (by linarith), mul_step (by omega) (by omega), show k - 1 + 1 = k by ring, hd]
    rw [logbHi.eq_def]
    simp only [lt_num_num]
    rw [if_neg (by simpa using b2), one_eq]
    have e : ((k - 1 : ℤ) : ℝ) + 1 = k := by push_cast; ring
    obtain ⟨u, hu⟩ := add_mkv (F := C) (s := s) (t := false) (a := ((k - 1 : ℤ) : ℝ)) (b := 1) (by rwa [e]) (by rwa [e])
    exact ⟨u, by rw [hu, e]⟩

/-- the first approximation of the exponent -/
theorem logb1_start {noerr : Bool} {l : FV} (hC : C.Has l) (hf : l.isFin) {t : ℤ} (ht : IsTrunc (t : ℝ) l.val)
    (hb : |t| < 2 ^ 62) :
    ∃ s, trunc C noerr l = some (.ret (mkv s t)) ∧ itrunc C noerr minLong maxLong (mkv s t) = some (.ret t) := by
  have hb' : |(t : ℝ)| < 2 ^ 62 := by exact_mod_cast hb
  obtain ⟨w, hw, hw1, hw2, hw3, -⟩ := C87_trunc C C noerr l hC hf (by have := ht.2.2.1; linarith)
  have e : w.val = t := isTrunc_unique hw3 ht
  refine ⟨w.sgn, ?_, ?_⟩
  · rw [← e, ← hw1.eq_mkv hw2]; exact hw
  · rw [← e, ← hw1.eq_mkv hw2]
    have hl := abs_lt.1 hb'
    obtain ⟨n, hn, hn2⟩ := C87_itrunc C noerr minLong maxLong (by decide) (by decide) w hw1 hw2
      (by rw [e]; unfold minLong; push_cast; linarith) (by rw [e]; unfold maxLong; push_cast; linarith)
    rw [hn]
    rw [e] at hn2
    rw [isTrunc_int hn2]

theorem logbImpl_abs {noerr : Bool} {log2 : FV → FV} {x : ℝ} (h0 : x ≠ 0) :
    logbImpl C noerr log2 (.num x) = bindRet (trunc C noerr (log2 (.num |x|))) (logb1 C noerr (.num |x|)) := by
  unfold logbImpl
  simp only [lt_num_zero]
  split_ifs with h
  · rw [abs_of_neg h]; rfl
  · rw [abs_of_nonneg (not_lt.1 h)]

theorem logb_num {noerr : Bool} {log2 : FV → FV} {x : ℝ} (hs : F.Sub C) (hx : F.Has (.num x)) :
    logb F C noerr log2 (.num x) = bindRet (bindRet (trunc C noerr (log2 (.num |x|))) (logb1 C noerr (.num |x|)))
      fun r => some (.ret (F.cvt r)) := by
  have h0 := hx.1
  unfold logb
  simp only [MathClass.isnan, eq_num_num, eq_num_zero, eq_num_inf, h0, decide_true, Bool.not_true, Bool.false_eq_true,
    if_false, or_self]
  rw [cvt_num (hs.rep hx.2.1) (lt_of_lt_of_le hx.2.2 (zpow_le_zpow_right₀ (by norm_num) hs.2.2)) h0, logbImpl_abs h0]

theorem min_le {x : ℝ} (h0 : x ≠ 0) (hr : Rep F.p F.emin x) : (2 : ℝ) ^ F.emin ≤ |x| := by
  obtain ⟨m, e, he, _, rfl⟩ := hr
  have hm : m ≠ 0 := by rintro rfl; simp at h0
  have h1 : (1 : ℝ) ≤ |(m : ℝ)| := by exact_mod_cast Int.one_le_abs hm
  rw [abs_mul, abs_of_pos (by positivity : (0 : ℝ) < (2 : ℝ) ^ e)]
  calc (2 : ℝ) ^ F.emin ≤ (2 : ℝ) ^ e := zpow_le_zpow_right₀ (by norm_num) he
    _ = 1 * (2 : ℝ) ^ e := by ring
    _ ≤ _ := mul_le_mul_of_nonneg_right h1 (by positivity)

theorem exp_range {x : ℝ} (hx : F.Has (.num x)) {k : ℤ} (hk : IsExp k x) : F.emin ≤ k ∧ k < F.emax := by
  constructor
  · have := lt_of_le_of_lt (min_le hx.1 hx.2.1) hk.2
    have := (zpow_lt_zpow_iff_right₀ (by norm_num : (1 : ℝ) < 2)).1 this
    omega
  · have := lt_of_le_of_lt hk.1 hx.2.2
    exact (zpow_lt_zpow_iff_right₀ (by norm_num : (1 : ℝ) < 2)).1 this

/-- `logbLo` does not end if the power has become infinite -/
theorem logbLo_inf (x : ℝ) (hx : 0 < x) (base exp : FV) (hb : base.lt (.num 1)) :
    logbLo C (.num x) (.inf false) base exp = none := by
  rw [Option.eq_none_iff_forall_ne_some]
  intro r hr
  refine logbLo.partial_correctness C (.num x) (fun x0 base _ _ => x0 = .inf false → base.lt (.num 1) → False) ?_ _ _ _ r hr rfl hb
  intro f ih x0 base exp r h h0 hb
  subst h0
  rw [if_pos hb] at h
  have e1 : C.mul (.inf false) (.num 2) = .inf false := by simp [Fmt.mul, sgn]
  have e2 : C.div (.num x) (C.div (.inf false) (.num 2)) = .zero false := by
    have : C.div (.inf false) (.num 2) = .inf false := by simp [Fmt.div, sgn]
    rw [this]
    simp [Fmt.div, sgn, le_of_lt hx]
  rw [e1, e2] at h
  exact ih _ _ _ _ h rfl (by simp)

/-- `logbHi` does not end if the power has become zero -/
theorem logbHi_zero (x : ℝ) (hx : 0 < x) (base exp : FV) (hb : ¬ base.lt (.num 2)) :
    logbHi C (.num x) (.zero false) base exp = none := by
  rw [Option.eq_none_iff_forall_ne_some]
  intro r hr
  refine logbHi.partial_correctness C (.num x) (fun x0 base _ _ => x0 = .zero false → ¬ base.lt (.num 2) → False) ?_ _ _ _ r hr rfl hb
  intro f ih x0 base exp r h h0 hb
  subst h0
  rw [if_pos hb] at h
  have e1 : C.div (.zero false) (.num 2) = .zero false := by
    show C.ofReal (false != decide ((2 : ℝ) < 0)) (0 / 2) = _
    rw [zero_div, ofReal_zero]; norm_num
  have e2 : C.div (.num x) (C.mul (.zero false) (.num 2)) = .inf false := by
    have : C.mul (.zero false) (.num 2) = .zero false := by
      show C.ofReal (false != decide ((2 : ℝ) < 0)) (0 * 2) = _
      rw [zero_mul, ofReal_zero]; norm_num
    rw [this]
    simp [Fmt.div, sgn, le_of_lt hx]
  rw [e1, e2] at h
  exact ih _ _ _ _ h rfl (by simp)

theorem ofReal_lt_one {s : Bool} {y : ℝ} (h0 : 0 ≤ y) (h : y ≤ 1 / 2) : (C.ofReal s y).lt (.num 1) := by
  have hr : Rep C.p C.emin (1 / 2 : ℝ) := by
    have := Rep.two_zpow (p := C.p) (emin := C.emin) (-1) (by have := C.emin_le; have := C.two_le_p; omega) C.one_le_p
    have e : (1 / 2 : ℝ) = (2 : ℝ) ^ (-1 : ℤ) := by norm_num
    rwa [e]
  have h1 := rnd_nonneg (F := C) h0
  have h2 := rnd_le h hr
  have h3 := one_lt_emax C
  unfold ofReal
  split_ifs with a b
  · simp
  · rw [abs_of_nonneg h1] at b; linarith
  · simp only [lt_num_num]; linarith

/-- `logbLo` does not end from a power four times too great or more -/
theorem logbLo_far {x : ℝ} (hx : 0 < x) {k : ℤ} (hk : IsExp k x) (hmin : C.emin ≤ k) (x0 base exp : FV)
    (h0 : x0 = .inf false ∨ ∃ j : ℤ, k + 3 ≤ j ∧ j < C.emax ∧ x0 = .num ((2 : ℝ) ^ j)) (hb : base.lt (.num 1)) :
    logbLo C (.num x) x0 base exp = none := by
  rw [Option.eq_none_iff_forall_ne_some]
  intro r hr
  refine logbLo.partial_correctness C (.num x) (fun x0 base _ _ => (x0 = .inf false ∨ ∃ j : ℤ, k + 3 ≤ j ∧ j < C.emax ∧
    x0 = .num ((2 : ℝ) ^ j)) → base.lt (.num 1) → False) ?_ _ _ _ r hr h0 hb
  intro f ih x0 base exp r h h0 hb
  rcases h0 with rfl | ⟨j, h1, h2, rfl⟩
  · rw [if_pos hb] at h
    have e1 : C.mul (.inf false) (.num 2) = .inf false := by simp [Fmt.mul, sgn]
    have e2 : C.div (.num x) (C.div (.inf false) (.num 2)) = .zero false := by
      have : C.div (.inf false) (.num 2) = .inf false := by simp [Fmt.div, sgn]
      rw [this]
      simp [Fmt.div, sgn, le_of_lt hx]
    rw [e1, e2] at h
    exact ih _ _ _ _ h (.inl rfl) (by simp)
  · rw [if_pos hb, div_step (by omega) (by omega), div_num] at h
    refine ih _ _ _ _ h ?_ ?_
    · by_cases hc : j + 1 < C.emax
      · exact .inr ⟨j + 1, by omega, hc, mul_step (by omega) hc⟩
      · left
        rw [mul_num, show (2 : ℝ) ^ j * 2 = (2 : ℝ) ^ (j + 1) by rw [zpow_add₀ (by norm_num), zpow_one]]
        exact ofReal_zpow_inf (by omega)
    · apply ofReal_lt_one (by positivity)
      have := (sig_bounds hx hk (j - 1)).2
      rw [zpow_neg, ← div_eq_mul_inv] at this
      refine le_of_lt (lt_of_lt_of_le this ?_)
      rw [show (1 / 2 : ℝ) = (2 : ℝ) ^ (-1 : ℤ) by norm_num]
      exact zpow_le_zpow_right₀ (by norm_num) (by omega)

/-- the greatest number of a type is one whose logarithm is rounded up, if the exponent is a power of two -/
theorem rep_below {p : ℕ} {emin : ℤ} (hp : 1 ≤ p) {j : ℕ} {y : ℝ} (h : Rep p emin y) (h1 : y < 2 ^ j) :
    y ≤ 2 ^ j - (2 : ℝ) ^ ((j : ℤ) - p) := by
  obtain ⟨m, e, _, hm, rfl⟩ := h
  rcases le_or_gt ((j : ℤ) - p) e with he | he
  · obtain ⟨d, hd⟩ := Int.eq_ofNat_of_zero_le (sub_nonneg.2 he)
    have hu : (0 : ℝ) < (2 : ℝ) ^ ((j : ℤ) - p) := by positivity
    have e1 : (m : ℝ) * (2 : ℝ) ^ e = ((m * 2 ^ d : ℤ) : ℝ) * (2 : ℝ) ^ ((j : ℤ) - p) := by
      rw [show e = (d : ℤ) + ((j : ℤ) - p) by omega, zpow_add₀ (by norm_num), zpow_natCast]
      push_cast; ring
    have e2 : (2 : ℝ) ^ j = ((2 ^ p : ℤ) : ℝ) * (2 : ℝ) ^ ((j : ℤ) - p) := by
      push_cast
      rw [← zpow_natCast (2 : ℝ) p, ← zpow_add₀ (by norm_num), ← zpow_natCast]
      congr 1; ring
    rw [e1, e2] at h1
    have h2 : ((m * 2 ^ d : ℤ) : ℝ) < ((2 ^ p : ℤ) : ℝ) := lt_of_mul_lt_mul_right h1 (le_of_lt hu)
    have h3 : m * 2 ^ d + 1 ≤ 2 ^ p := by
      have : m * 2 ^ d < 2 ^ p := by exact_mod_cast h2
      omega
    have h4 : ((m * 2 ^ d : ℤ) : ℝ) + 1 ≤ ((2 ^ p : ℤ) : ℝ) := by exact_mod_cast h3
    rw [e1, e2]
    nlinarith
  · have hm' : (m : ℝ) < (2 : ℝ) ^ (p : ℤ) := by
      rw [zpow_natCast]; exact lt_of_le_of_lt (le_abs_self _) (by exact_mod_cast hm)
    have h2 : (m : ℝ) * (2 : ℝ) ^ e ≤ (2 : ℝ) ^ ((j : ℤ) - 1) := by
      calc (m : ℝ) * (2 : ℝ) ^ e ≤ (2 : ℝ) ^ (p : ℤ) * (2 : ℝ) ^ e :=
            mul_le_mul_of_nonneg_right (le_of_lt hm') (by positivity)
        _ = (2 : ℝ) ^ ((p : ℤ) + e) := by rw [zpow_add₀ (by norm_num)]
        _ ≤ (2 : ℝ) ^ ((j : ℤ) - 1) := zpow_le_zpow_right₀ (by norm_num) (by omega)
    have h3 : (2 : ℝ) ^ ((j : ℤ) - p) ≤ (2 : ℝ) ^ ((j : ℤ) - 1) := zpow_le_zpow_right₀ (by norm_num) (by omega)
    have h4 : (2 : ℝ) ^ j = 2 * (2 : ℝ) ^ ((j : ℤ) - 1) := by
      rw [zpow_sub_one₀ (by norm_num), zpow_natCast]; ring
    rw [h4]; linarith

end MathScale

end Sprout
