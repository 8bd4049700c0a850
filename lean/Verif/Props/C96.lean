import Verif.Proofs.MathLog

/-! # C96: the natural logarithm -/

namespace Sprout

open Classical FV Fmt MathExp MathTables MathLog MathConst

namespace MathLog

variable {L F C : Fmt} {t : FloatTy}

theorem log_num (hs : F.Sub C) {x : ℝ} (hx : F.Has (.num x)) (h0 : 0 < x) (h1 : x ≠ 1) :
    log L F C t (.num x) = (logImpl L C t (.num x)).map F.cvt := by
  unfold log
  simp only [MathClass.isnan, eq_num_num, eq_num_zero, eq_num_inf, lt_num_zero, hx.1, h1, decide_true, Bool.not_true,
    Bool.false_eq_true, if_false, if_neg (not_lt.2 (le_of_lt h0))]
  rw [cvt_num (hs.rep hx.2.1) (hs.lt hx.2.2) hx.1]

theorem sub_has (hs : F.Sub C) {x : ℝ} (hx : F.Has (.num x)) : C.Has (.num x) := ⟨hx.1, hs.rep hx.2.1, hs.lt hx.2.2⟩

/-- arguments greater than one -/
theorem above (w : C.Big) (hf : HasFormat C t) (hL : C.Sub L) {x : ℝ} (hx : C.Has (.num x)) (h1 : 1 < x) :
    ∃ v r, logImpl1 L C t (.num x) = some v ∧ Val v r ∧ Rep C.p C.emin r ∧ |r - Real.log x| ≤ 52 * C.u * Real.log x := by
  obtain ⟨rt, rt1, rt2, rt3⟩ := rootTwo w hL
  obtain ⟨k, hk⟩ := pow_unbounded_of_one_lt (Real.log x / (34 / 100)) (by norm_num : (1 : ℝ) < 18 / 10)
  rw [div_lt_iff₀ (by norm_num)] at hk
  obtain ⟨v, r, v1, v2, v3, v4, v5⟩ := logImpl1_val w hf hL rt1 rt2 rt3 k x hx h1 (by linarith)
  refine ⟨v, r, v1, v2, v3, ?_⟩
  have hu := u_pos (F := C)
  have := mul_pos hu (Real.log_pos h1)
  rcases le_or_gt x rt with h | h
  · have := v4 h
    linarith
  · have := v5 h
    linarith

/-- the quotient for arguments less than one -/
theorem recip (w : C.Big) {x : ℝ} (hx : C.Has (.num x)) (h0 : (2 : ℝ) ^ (1 - C.emax) ≤ x) (h1 : x < 1) :
    ∃ y, C.div (.num 1) (.num x) = .num y ∧ C.Has (.num y) ∧ 1 < y ∧ |y - 1 / x| ≤ C.u * (1 / x) ∧
      (∀ b, Rep C.p C.emin b → |y - 1 / x| ≤ |b - 1 / x|) := by
  have hu := u_pos (F := C)
  have hu8 := w.u_small
  have hx0 : 0 < x := lt_of_lt_of_le (by positivity) h0
  have hi : 1 < 1 / x := by rw [lt_div_iff₀ hx0]; linarith
  have hb : 1 / x ≤ (2 : ℝ) ^ (C.emax - 1) := by
    rw [div_le_iff₀ hx0]
    have := mul_le_mul_of_nonneg_left h0 (show 0 ≤ (2 : ℝ) ^ (C.emax - 1) by positivity)
    rw [← zpow_add₀ (by norm_num), show C.emax - 1 + (1 - C.emax) = 0 by ring, zpow_zero] at this
    exact this
  have hlt := rnd_lt_emax (F := C) (x := 1 / x) (by rw [abs_of_pos (by linarith)]; exact hb)
  have hv := div_val (F := C) (Val.num one_ne_zero) (Val.num hx.1) hx.1 hlt
  have hge : 1 ≤ C.rnd (1 / x) := le_rnd (le_of_lt hi) C.rep_one
  -- x is at most 1 - u
  have hxu : x ≤ 1 - C.u := by
    rcases lt_or_ge x (1 / 2) with h | h
    · linarith
    · obtain ⟨m, hm⟩ := hx.2.1.grid' (e := -C.p) (by
        rw [show (C.p : ℤ) - 1 + -C.p = -1 by ring, zpow_neg_one]; linarith)
      have hone : (1 : ℝ) = (2 ^ C.p : ℤ) * (2 : ℝ) ^ (-(C.p : ℤ)) := by
        push_cast
        rw [← zpow_natCast, ← zpow_add₀ (by norm_num), add_neg_cancel, zpow_zero]
      have h2 : (m : ℝ) < (2 ^ C.p : ℤ) := by
        refine lt_of_mul_lt_mul_right (?_ : (m : ℝ) * (2 : ℝ) ^ (-(C.p : ℤ)) < _) (show 0 ≤ (2 : ℝ) ^ (-(C.p : ℤ)) by positivity)
        rw [← hone, ← hm]
        exact h1
      have h3 : m + 1 ≤ 2 ^ C.p := by exact_mod_cast h2
      have h4 : ((m + 1 : ℤ) : ℝ) ≤ (2 ^ C.p : ℤ) := by exact_mod_cast h3
      have h5 := mul_le_mul_of_nonneg_right h4 (show 0 ≤ (2 : ℝ) ^ (-(C.p : ℤ)) by positivity)
      rw [← hone] at h5
      push_cast at h5
      have : C.u = (2 : ℝ) ^ (-(C.p : ℤ)) := rfl
      rw [this, hm]
      linarith
  have hi2 : 1 + C.u < 1 / x := by
    rw [lt_div_iff₀ hx0]
    have := mul_le_mul_of_nonneg_left hxu (show 0 ≤ 1 + C.u by linarith)
    nlinarith
  have h2u : Rep C.p C.emin (1 + 2 * C.u) := by
    refine ⟨2 ^ (C.p - 1) + 1, 1 - C.p, by have := C.emin_le; have := w.p53; omega, ?_, ?_⟩
    · have := w.p53
      have h6 : (2 : ℤ) ^ C.p = 2 * 2 ^ (C.p - 1) := by rw [← pow_succ']; congr 1; omega
      have h7 : (2 : ℤ) ^ 2 ≤ 2 ^ (C.p - 1) := pow_le_pow_right₀ (by norm_num) (by omega)
      rw [abs_of_pos (by omega)]
      omega
    · have := w.p53
      push_cast
      rw [add_mul, ← zpow_natCast, ← zpow_add₀ (by norm_num), show ((C.p - 1 : ℕ) : ℤ) + (1 - (C.p : ℤ)) = 0 by omega, zpow_zero,
        sub_eq_add_neg, zpow_add₀ (by norm_num), one_mul, zpow_one]
      rfl
  have hgt : 1 < C.rnd (1 / x) := by
    refine lt_of_le_of_ne hge fun hc => ?_
    have := C.rnd_near (1 / x) _ h2u
    rw [← hc, abs_of_neg (by linarith)] at this
    rcases le_or_gt (1 / x) (1 + 2 * C.u) with h | h
    · rw [abs_of_nonneg (by linarith)] at this; linarith
    · rw [abs_of_neg (by linarith)] at this; linarith
  refine ⟨_, hv.eq_num (by linarith), ⟨by linarith, C.rnd_rep _, hlt⟩, hgt, ?_, fun b hb => C.rnd_near _ b hb⟩
  have := rnd_rel (F := C) (x := 1 / x) (by
    rw [abs_of_pos (by linarith)]
    have := C.emin_le
    have := w.p53
    have h3 : (2 : ℝ) ^ (C.emin + C.p - 1) ≤ (2 : ℝ) ^ (0 : ℤ) := zpow_le_zpow_right₀ (by norm_num) (by omega)
    rw [zpow_zero] at h3
    linarith)
  rwa [abs_of_pos (by linarith : 0 < 1 / x)] at this

theorem below (w : C.Big) (hf : HasFormat C t) (hL : C.Sub L) {x : ℝ} (hx : C.Has (.num x)) (h0 : (2 : ℝ) ^ (1 - C.emax) ≤ x)
    (h1 : x < 1) : ∃ v r, logImpl L C t (.num x) = some v ∧ Val v r ∧ Rep C.p C.emin r ∧
      |r - Real.log x| ≤ 53 * C.u * |Real.log x| + 2 * C.u := by
  have hu := u_pos (F := C)
  have hu8 := w.u_small
  have hx0 : 0 < x := lt_of_lt_of_le (by positivity) h0
  obtain ⟨y, y1, y2, y3, y4, -⟩ := recip w hx h0 h1
  obtain ⟨v, r, v1, v2, v3, v4⟩ := above (t := t) w hf hL y2 y3
  have hi : 1 < 1 / x := by rw [lt_div_iff₀ hx0]; linarith
  have hc := log_close (show 0 < 1 / x by linarith) (le_of_lt hu) (by linarith) y4
  rw [one_div, Real.log_inv] at hc
  have hl : Real.log x < 0 := Real.log_neg hx0 h1
  refine ⟨v.neg, -r, ?_, v2.neg, v3.neg, ?_⟩
  · unfold logImpl
    rw [if_pos (by simp only [lt_num_num]; exact h1), y1, v1]
    rfl
  · rw [abs_of_neg hl]
    have e : -r - Real.log x = -((r - Real.log y) + (Real.log y - -Real.log x)) := by ring
    rw [e, abs_neg]
    refine le_trans (abs_add_le _ _) ?_
    have hc' := abs_le.1 hc
    have h2 : 52 * C.u * Real.log y ≤ 52 * C.u * (-Real.log x + 101 / 100 * C.u) :=
      mul_le_mul_of_nonneg_left (by linarith) (by linarith)
    have h3 : C.u * C.u ≤ C.u * (1 / 1000) := mul_le_mul_of_nonneg_left (by linarith) (le_of_lt hu)
    have h4 : 0 ≤ C.u * -Real.log x := mul_nonneg (le_of_lt hu) (by linarith)
    linarith

theorem log_bounded (w : C.Big) {x r : ℝ} (hx : C.Has (.num x)) (h0 : (2 : ℝ) ^ (1 - C.emax) ≤ x)
    (h : |r - Real.log x| ≤ 53 * C.u * |Real.log x| + 2 * C.u) : |r| < (2 : ℝ) ^ C.emax := by
  have hu := u_pos (F := C)
  have hu8 := w.u_small
  have hx0 : 0 < x := lt_of_lt_of_le (by positivity) h0
  have hl1 : Real.log x ≤ C.emax := by
    have h1 := hx.2.2
    rw [abs_of_pos hx0] at h1
    have h2 := Real.log_le_log hx0 (le_of_lt h1)
    rw [Real.log_zpow] at h2
    have h3 := Real.log_two_lt_d9
    have h4 : (0 : ℝ) ≤ C.emax := by have := w.emax; exact_mod_cast (by omega : (0 : ℤ) ≤ C.emax)
    nlinarith
  have hl2 : -(C.emax : ℝ) ≤ Real.log x := by
    have h2 := Real.log_le_log (by positivity) h0
    rw [Real.log_zpow] at h2
    have h3 := Real.log_two_lt_d9
    have h3' := Real.log_two_gt_d9
    have h4 : (1024 : ℝ) ≤ C.emax := by have := w.emax; exact_mod_cast this
    push_cast at h2
    nlinarith
  have hl : |Real.log x| ≤ C.emax := abs_le.2 ⟨hl2, hl1⟩
  have h5 := abs_add_le (r - Real.log x) (Real.log x)
  rw [sub_add_cancel] at h5
  have h6 : 53 * C.u * |Real.log x| ≤ 1 / 2 * |Real.log x| := mul_le_mul_of_nonneg_right (by linarith) (abs_nonneg _)
  have h7 : (C.emax : ℝ) * 2 ≤ (2 : ℝ) ^ C.emax := by
    have := w.emax
    obtain ⟨n, hn⟩ : ∃ n : ℕ, (n : ℤ) = C.emax - 1 := ⟨(C.emax - 1).toNat, by omega⟩
    have e : C.emax = n + 1 := by omega
    rw [e, zpow_add_one₀ (by norm_num), zpow_natCast]
    have h8 : n + 1 ≤ 2 ^ n := Nat.lt_two_pow_self
    have h9 : ((n + 1 : ℕ) : ℝ) ≤ 2 ^ n := by exact_mod_cast h8
    push_cast at h9 ⊢
    linarith
  have h8 : (1024 : ℝ) ≤ C.emax := by have := w.emax; exact_mod_cast this
  linarith

end MathLog

/-- special arguments -/
theorem C96_log_special (L F C : Fmt) (t : FloatTy) : log L F C t .nan = some .nan ∧
    (∀ s, log L F C t (.zero s) = some (.inf true)) ∧ log L F C t (.inf false) = some (.inf false) ∧
    log L F C t (.inf true) = some .nan ∧ (∀ x : ℝ, x < 0 → log L F C t (.num x) = some .nan) ∧
    log L F C t (.num 1) = some (.zero false) := by
  refine ⟨?_, fun s => ?_, ?_, ?_, fun x hx => ?_, ?_⟩
  · simp [log, MathClass.isnan]
  · cases s <;> simp [log, MathClass.isnan]
  · simp [log, MathClass.isnan]
  · simp [log, MathClass.isnan]
  · simp [log, MathClass.isnan, ne_of_lt hx, hx]
  · simp [log, MathClass.isnan]

/-- The logarithm of an argument greater than one has a relative error of at most 64 half epsilons of the type of computation.
For an argument less than one there is an absolute error of at most an epsilon in addition. Missing: arguments of which the
reciprocal overflows; and a relative error for arguments just below one, see `C96_log_refuted`. -/
theorem C96_log_partial (L F C : Fmt) (t : FloatTy) (hs : F.Sub C) (hL : C.Sub L) (w : C.Big) (hf : HasFormat C t) (x : ℝ)
    (hx : F.Has (.num x)) (h0 : (2 : ℝ) ^ (1 - C.emax) ≤ x) (h1 : x ≠ 1) :
    ∃ v, log L F C t (.num x) = some (F.cvt v) ∧ C.Has v ∧ v.isFin ∧
      (1 < x → |v.val - Real.log x| ≤ (2 : ℝ) ^ (6 - (C.p : ℤ)) * Real.log x) ∧
      (x < 1 → |v.val - Real.log x| ≤ (2 : ℝ) ^ (6 - (C.p : ℤ)) * |Real.log x| + (2 : ℝ) ^ (1 - (C.p : ℤ))) := by
  have hu := u_pos (F := C)
  have hx0 : 0 < x := lt_of_lt_of_le (by positivity) h0
  have hxC := sub_has hs hx
  have e6 : (2 : ℝ) ^ (6 - (C.p : ℤ)) = 64 * C.u := by
    unfold u
    rw [sub_eq_add_neg, zpow_add₀ (by norm_num)]
    norm_num
  have e1 : (2 : ℝ) ^ (1 - (C.p : ℤ)) = 2 * C.u := by
    unfold u
    rw [sub_eq_add_neg, zpow_add₀ (by norm_num)]
    norm_num
  rw [e6, e1]
  have hul := mul_nonneg (le_of_lt hu) (abs_nonneg (Real.log x))
  rcases lt_or_gt_of_ne h1 with h | h
  · obtain ⟨v, r, v1, v2, v3, v4⟩ := below (t := t) w hf hL hxC h0 h
    refine ⟨v, by rw [log_num hs hx hx0 h1, v1]; rfl, val_has v2 v3 (log_bounded w hxC h0 v4), v2.isFin,
      fun h2 => absurd h (not_lt.2 (le_of_lt h2)), fun _ => ?_⟩
    rw [v2.val]
    linarith
  · obtain ⟨v, r, v1, v2, v3, v4⟩ := above (t := t) w hf hL hxC h
    have hl := Real.log_pos h
    rw [abs_of_pos hl] at hul
    refine ⟨v, ?_, val_has v2 v3 (log_bounded w hxC h0 (by rw [abs_of_pos hl]; linarith)), v2.isFin, fun _ => ?_,
      fun h2 => absurd h (not_lt.2 (le_of_lt h2))⟩
    · rw [log_num hs hx hx0 h1]
      unfold logImpl
      rw [if_neg (by simp only [lt_num_num, not_lt]; exact le_of_lt h), v1]
      rfl
    · rw [v2.val]
      linarith

/-- The logarithm of the greatest value below one of the type of computation is about twice what it should be. For arguments
of which the reciprocal overflows, the recursion does not end. -/
theorem C96_log_refuted (L C : Fmt) (t : FloatTy) (hL : C.Sub L) (w : C.Big) (hf : HasFormat C t) :
    (∃ v, C.Has (.num (1 - (2 : ℝ) ^ (-(C.p : ℤ)))) ∧ log L C C t (.num (1 - (2 : ℝ) ^ (-(C.p : ℤ)))) = some v ∧ v.isFin ∧
      v.val ≤ 19 / 10 * Real.log (1 - (2 : ℝ) ^ (-(C.p : ℤ)))) ∧
    (∀ x : ℝ, C.Has (.num x) → 0 < x → (2 : ℝ) ^ C.emax ≤ 1 / x → log L C C t (.num x) = none) := by
  have hu := u_pos (F := C)
  have hu8 := w.u_small
  have hp := w.p53
  constructor
  · change ∃ v, C.Has (.num (1 - C.u)) ∧ log L C C t (.num (1 - C.u)) = some v ∧ v.isFin ∧ v.val ≤ 19 / 10 * Real.log (1 - C.u)
    have hrep : Rep C.p C.emin (1 - C.u) := by
      refine ⟨2 ^ C.p - 1, -C.p, by have := C.emin_le; omega, ?_, ?_⟩
      · have : (2 : ℤ) ^ 1 ≤ 2 ^ C.p := pow_le_pow_right₀ (by norm_num) (by omega)
        rw [abs_of_pos (by omega)]
        omega
      · push_cast
        rw [sub_mul, ← zpow_natCast, ← zpow_add₀ (by norm_num), add_neg_cancel, zpow_zero, one_mul]
        rfl
    have hM := big_max w
    have hM2 : (2 : ℝ) ^ (C.emax - 1) ≤ (2 : ℝ) ^ C.emax := zpow_le_zpow_right₀ (by norm_num) (by omega)
    have hx : C.Has (.num (1 - C.u)) := ⟨by linarith, hrep, by rw [abs_of_pos (by linarith)]; linarith⟩
    have h0 : (2 : ℝ) ^ (1 - C.emax) ≤ 1 - C.u := by
      have := w.emax
      have : (2 : ℝ) ^ (1 - C.emax) ≤ (2 : ℝ) ^ (-1 : ℤ) := zpow_le_zpow_right₀ (by norm_num) (by omega)
      rw [zpow_neg_one] at this
      linarith
    have h1 : 1 - C.u < 1 := by linarith
    obtain ⟨y, y1, y2, y3, y4, -⟩ := recip w hx h0 h1
    obtain ⟨v, r, v1, v2, v3, v4⟩ := above (t := t) w hf hL y2 y3
    have hy2 : y ≤ 2 := by
      have h2 : 1 / (1 - C.u) ≤ 1.5 := by rw [div_le_iff₀ (by linarith)]; linarith
      have h3 := (abs_le.1 y4).2
      have h4 : C.u * (1 / (1 - C.u)) ≤ C.u * 1.5 := mul_le_mul_of_nonneg_left h2 (le_of_lt hu)
      linarith
    have hz := (sub_one_rep w y2.2.1 y3 hy2).2
    have hly : 199 / 100 * C.u ≤ Real.log y := by
      have h2 : Real.log (1 + 2 * C.u) ≤ Real.log y := Real.log_le_log (by linarith) (by linarith)
      have h3 := Real.le_log_one_add_of_nonneg (show 0 ≤ 2 * C.u by linarith)
      have h4 : 199 / 100 * C.u ≤ 2 * (2 * C.u) / (2 * C.u + 2) := by
        rw [le_div_iff₀ (by linarith)]
        nlinarith
      linarith
    have hb : |-r| < (2 : ℝ) ^ C.emax := by
      have h2 := Real.log_le_sub_one_of_pos (show 0 < y by linarith)
      have h3 := abs_add_le (r - Real.log y) (Real.log y)
      rw [sub_add_cancel, abs_of_pos (Real.log_pos y3)] at h3
      have h4 : 52 * C.u * Real.log y ≤ 1 * Real.log y := mul_le_mul_of_nonneg_right (by linarith) (le_of_lt (Real.log_pos y3))
      rw [abs_neg]
      linarith
    have hc := cvt_val (F := C) v2.neg (by rw [rnd_of_rep v3.neg]; exact hb)
    rw [rnd_of_rep v3.neg] at hc
    refine ⟨C.cvt v.neg, hx, ?_, hc.isFin, ?_⟩
    · rw [log_num ⟨le_refl _, le_refl _, le_refl _⟩ hx (by linarith) (by linarith)]
      unfold logImpl
      rw [if_pos (by simp only [lt_num_num]; exact h1), y1, v1]
      rfl
    · rw [hc.val]
      have h5 := (abs_le.1 v4).1
      have h6 : 52 * C.u * Real.log y ≤ 1 / 100 * Real.log y := mul_le_mul_of_nonneg_right (by linarith) (le_of_lt (Real.log_pos y3))
      have h7 : -(101 / 100 * C.u) ≤ Real.log (1 - C.u) := by
        have h8 := Real.one_sub_inv_le_log_of_pos (show 0 < 1 - C.u by linarith)
        have h9 : (1 - C.u)⁻¹ ≤ 1 + 101 / 100 * C.u := by
          rw [inv_le_iff_one_le_mul₀ (by linarith)]
          nlinarith
        linarith
      linarith
  · intro x hx h0 h
    have hx1 : x < 1 := by
      by_contra hc
      have : 1 / x ≤ 1 := by rw [div_le_one h0]; exact not_lt.1 hc
      have hM := big_max w
      have hM2 : (2 : ℝ) ^ (C.emax - 1) ≤ (2 : ℝ) ^ C.emax := zpow_le_zpow_right₀ (by norm_num) (by omega)
      linarith
    have hdiv : C.div (.num 1) (.num x) = .inf false := by
      have h2 : ¬ |C.rnd (1 / x)| < (2 : ℝ) ^ C.emax := by
        have h3 : (2 : ℝ) ^ C.emax ≤ C.rnd (1 / x) := le_rnd h ⟨1, C.emax, by have := C.emin_le; have := w.emax; omega, by
          have : (2 : ℤ) ^ 1 ≤ 2 ^ C.p := pow_le_pow_right₀ (by norm_num) (by omega)
          rw [abs_one]; omega, by simp⟩
        have h4 : (0 : ℝ) < (2 : ℝ) ^ C.emax := by positivity
        rw [abs_of_pos (by linarith)]
        linarith
      have h4 : (0 : ℝ) < 1 / x := by positivity
      show C.ofReal _ (1 / x) = _
      unfold ofReal
      rw [if_neg (by intro hc; rw [hc, abs_zero] at h2; exact h2 (by positivity)), if_pos (not_lt.1 h2), decide_eq_false (by linarith)]
    rw [log_num ⟨le_refl _, le_refl _, le_refl _⟩ hx h0 (ne_of_lt hx1)]
    unfold logImpl
    rw [if_pos (by simp only [lt_num_num]; exact hx1), hdiv]
    have : logImpl1 L C t (.inf false) = none := by
      rw [Option.eq_none_iff_forall_ne_some]
      intro r hr
      obtain ⟨rt, rt1, -, -⟩ := rootTwo w hL
      refine logImpl1.partial_correctness L C t (fun v _ => v = .inf false → False) ?_ _ r hr rfl
      intro f ih v r h hv
      subst hv
      rw [rt1, if_neg (by simp)] at h
      have e : MathSqrt.sqrt C C (.inf false) = some (.inf false) := by simp [MathSqrt.sqrt, MathClass.isnan]
      rw [e] at h
      obtain ⟨l, hl, -⟩ := Option.bind_eq_some_iff.1 (show (f (.inf false)).bind _ = some r from h)
      exact ih _ _ hl rfl
    rw [this]
    rfl

/-- the logarithm of ten in `double` -/
example : ∃ v, log extended Fmt.double Fmt.double .double (.num 10) = some (Fmt.double.cvt v) ∧
    |v.val - Real.log 10| ≤ (2 : ℝ) ^ (-47 : ℤ) * Real.log 10 := by
  have hx : Fmt.double.Has (.num 10) := by exact_mod_cast has_int Fmt.double 10 (by norm_num) (by simp [Fmt.double, ieee])
  obtain ⟨v, h1, -, -, h2, -⟩ := C96_log_partial extended Fmt.double Fmt.double .double ⟨le_refl _, le_refl _, le_refl _⟩
    (by simp [Fmt.Sub, Fmt.double, extended, ieee]) big_double ⟨rfl, by decide⟩ 10 hx
    (by
      have : (2 : ℝ) ^ (1 - Fmt.double.emax) ≤ (2 : ℝ) ^ (0 : ℤ) := zpow_le_zpow_right₀ (by norm_num) (by decide)
      rw [zpow_zero] at this
      linarith) (by norm_num)
  exact ⟨v, h1, h2 (by norm_num)⟩

/-- the logarithm of the least positive `double` does not end -/
example : log extended Fmt.double Fmt.double .double (.num ((2 : ℝ) ^ (-1074 : ℤ))) = none := by
  refine (C96_log_refuted extended Fmt.double .double (by simp [Fmt.Sub, Fmt.double, extended, ieee]) big_double
    ⟨rfl, by decide⟩).2 _ ⟨by positivity, ⟨1, -1074, by decide, by simp [Fmt.double, ieee], by simp⟩, ?_⟩ (by positivity) ?_
  · rw [abs_of_pos (by positivity)]
    exact zpow_lt_zpow_right₀ (by norm_num) (by decide)
  · rw [one_div, ← zpow_neg]
    exact zpow_le_zpow_right₀ (by norm_num) (by decide)

end Sprout
