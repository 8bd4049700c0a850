import Verif.Props.C96
import Verif.Props.C97
import Verif.Model.MathLogs

/-! # Quotients of logarithms -/

namespace Sprout

open Classical FV Fmt MathTables MathConst MathLog MathTrig MathExp

namespace MathLogs

variable {L F C : Fmt} {t : FloatTy}

/-- the error of a quotient -/
theorem quot {l a b b' u d e : ℝ} (hu : 0 < u) (hu8 : u ≤ 1 / 9007199254740992) (hd : 0 ≤ d) (hd2 : d ≤ 100) (he : 0 ≤ e)
    (hb : 0 < b) (h1 : |l - a| ≤ 64 * u * |a| + e) (h2 : |b' - b| ≤ d * u * b) :
    0 < b' ∧ |l / b' - a / b| ≤ ((d + 65) * u * |a| + 11 / 10 * e) / b ∧ |l / b'| ≤ (11 / 10 * |a| + 11 / 10 * e) / b := by
  have hdu : d * u ≤ 1 / 1000000000000 := by nlinarith
  have hdu0 : 0 ≤ d * u := by positivity
  have hb' : (1 - d * u) * b ≤ b' := by have := (abs_le.1 h2).1; linarith
  have hbp : 0 < b' := lt_of_lt_of_le (mul_pos (by linarith) hb) hb'
  have ha := abs_nonneg a
  -- the reciprocal of the divisor
  have hi : 1 / b' ≤ 1001 / 1000 * (1 / b) := by
    rw [mul_one_div, div_le_div_iff₀ hbp hb]
    nlinarith
  have hi0 : 0 < 1 / b' := by positivity
  have hib : 0 < 1 / b := by positivity
  have e1 : l / b' - a / b = (l - a) * (1 / b') + a * ((b - b') * (1 / b') * (1 / b)) := by field_simp; ring
  have h3 : |(l - a) * (1 / b')| ≤ (64 * u * |a| + e) * (1001 / 1000 * (1 / b)) := by
    rw [abs_mul, abs_of_pos hi0]
    exact mul_le_mul h1 hi (le_of_lt hi0) (by positivity)
  have h4 : |(b - b') * (1 / b') * (1 / b)| ≤ d * u * (1001 / 1000 * (1 / b)) := by
    rw [abs_mul, abs_mul, abs_of_pos hi0, abs_of_pos hib, abs_sub_comm]
    have i1 : |b' - b| * (1 / b') ≤ d * u * b * (1001 / 1000 * (1 / b)) := mul_le_mul h2 hi (le_of_lt hi0) (by positivity)
    have i2 : d * u * b * (1001 / 1000 * (1 / b)) = d * u * (1001 / 1000) := by field_simp
    rw [i2] at i1
    have := mul_le_mul_of_nonneg_right i1 (le_of_lt hib)
    linarith
  have h5 : |a * ((b - b') * (1 / b') * (1 / b))| ≤ |a| * (d * u * (1001 / 1000 * (1 / b))) := by
    rw [abs_mul]
    exact mul_le_mul_of_nonneg_left h4 ha
  have hua : 0 ≤ u * |a| * (1 / b) := by positivity
  have hd3 : d * (u * |a| * (1 / b)) ≤ 100 * (u * |a| * (1 / b)) := mul_le_mul_of_nonneg_right hd2 hua
  have heb : 0 ≤ e * (1 / b) := by positivity
  have hab : 0 ≤ |a| * (1 / b) := by positivity
  refine ⟨hbp, ?_, ?_⟩
  · rw [e1, div_eq_mul_one_div ((d + 65) * u * |a| + 11 / 10 * e)]
    refine le_trans (abs_add_le _ _) ?_
    linarith
  · have h6 : |l| ≤ |a| + (64 * u * |a| + e) := by
      have := abs_add_le (l - a) a
      rw [sub_add_cancel] at this
      linarith
    rw [abs_div, abs_of_pos hbp, div_eq_mul_one_div, div_eq_mul_one_div (11 / 10 * |a| + 11 / 10 * e)]
    have h7 : |l| * (1 / b') ≤ (|a| + (64 * u * |a| + e)) * (1001 / 1000 * (1 / b)) :=
      mul_le_mul h6 hi (le_of_lt hi0) (by positivity)
    have h8 : u * (|a| * (1 / b)) ≤ 1 / 9007199254740992 * (|a| * (1 / b)) := mul_le_mul_of_nonneg_right hu8 hab
    linarith

/-- the rounded quotient -/
theorem div_near (h : C.Big) {v w : FV} {l a b b' d e : ℝ} (hv : Val v l) (hw : Val w b') (hd : 0 ≤ d) (hd2 : d ≤ 100) (he : 0 ≤ e)
    (he2 : e ≤ 2 * C.u) (hb : C.u ≤ 2 * b) (h1 : |l - a| ≤ 64 * C.u * |a| + e) (h2 : |b' - b| ≤ d * C.u * b) (ha : C.u ≤ 2 * |a|)
    (ha2 : |a| ≤ 2 ^ 31) (hb2 : b ≤ 2 ^ 31) : ∃ r, Val (C.div v w) r ∧ Rep C.p C.emin r ∧
      |r - a / b| ≤ ((d + 68) * C.u * |a| + 2 * e) / b ∧ |r| < (2 : ℝ) ^ C.emax := by
  have hu := u_pos (F := C)
  have hu8 := h.u_small
  have hb0 : 0 < b := by linarith
  obtain ⟨q1, q2, q3⟩ := quot hu hu8 hd hd2 he hb0 h1 h2
  have hib : 0 < 1 / b := by positivity
  have hi2 : 1 / b ≤ (2 : ℝ) ^ (114 : ℤ) := by
    have h3 := one_div_le_one_div_of_le hu hb
    have h4 : 1 / C.u ≤ (2 : ℝ) ^ (113 : ℤ) := by
      unfold u
      rw [zpow_neg, one_div, inv_inv]
      exact zpow_le_zpow_right₀ (by norm_num) (by have := h.p113; omega)
    have e2 : (2 : ℝ) ^ (114 : ℤ) = 2 * (2 : ℝ) ^ (113 : ℤ) := by norm_num
    have e3 : 1 / b = 2 * (1 / (2 * b)) := by field_simp
    rw [e2, e3]
    exact mul_le_mul_of_nonneg_left (le_trans h3 h4) (by norm_num)
  have hmax : |l / b'| ≤ (2 : ℝ) ^ (C.emax - 1) := by
    refine le_trans q3 ?_
    rw [div_eq_mul_one_div]
    have i1 : (11 / 10 * |a| + 11 / 10 * e) ≤ (2 : ℝ) ^ (32 : ℤ) := by norm_num at ha2 ⊢; linarith
    refine le_trans (mul_le_mul i1 hi2 (le_of_lt hib) (by positivity)) ?_
    rw [← zpow_add₀ (by norm_num)]
    exact zpow_le_zpow_right₀ (by norm_num) (by have := h.emax; omega)
  have hr := div_val (F := C) hv hw (ne_of_gt q1) (rnd_lt_emax hmax)
  have herr := rnd_err (F := C) (l / b')
  refine ⟨_, hr, C.rnd_rep _, ?_, rnd_lt_emax hmax⟩
  have hη : (2 : ℝ) ^ C.emin ≤ C.u * |a| * (1 / b) := by
    have i1 : (2 : ℝ) ^ C.emin ≤ (2 : ℝ) ^ (-258 : ℤ) :=
      le_trans h.eta_le (zpow_le_zpow_right₀ (by norm_num) (by norm_num))
    have i2 := h.u_ge
    have i3 : (2 : ℝ) ^ (-31 : ℤ) ≤ 1 / b := by
      rw [zpow_neg, ← one_div]
      exact one_div_le_one_div_of_le hb0 (by exact_mod_cast hb2)
    have i4 : (2 : ℝ) ^ (-114 : ℤ) ≤ |a| := by
      have e2 : (2 : ℝ) ^ (-113 : ℤ) = 2 * (2 : ℝ) ^ (-114 : ℤ) := by norm_num
      rw [e2] at i2
      generalize (2 : ℝ) ^ (-114 : ℤ) = y at *
      linarith
    have e1 : (2 : ℝ) ^ (-258 : ℤ) = (2 : ℝ) ^ (-113 : ℤ) * (2 : ℝ) ^ (-114 : ℤ) * (2 : ℝ) ^ (-31 : ℤ) := by
      rw [← zpow_add₀ (by norm_num), ← zpow_add₀ (by norm_num)]
      norm_num
    refine le_trans i1 (le_trans (le_of_eq e1) ?_)
    exact mul_le_mul (mul_le_mul i2 i4 (by positivity) (le_of_lt hu)) i3 (by positivity) (by positivity)
  have h4 := abs_add_le (C.rnd (l / b') - l / b') (l / b' - a / b)
  rw [sub_add_sub_cancel] at h4
  have h5 := mul_le_mul_of_nonneg_left q3 (le_of_lt hu)
  rw [div_eq_mul_one_div ((d + 65) * C.u * |a| + 11 / 10 * e)] at q2
  rw [div_eq_mul_one_div (11 / 10 * |a| + 11 / 10 * e)] at h5
  rw [div_eq_mul_one_div ((d + 68) * C.u * |a| + 2 * e)]
  have h8 : 0 ≤ C.u * |a| * (1 / b) := by positivity
  have h6 : C.u * (e * (1 / b)) ≤ 1 / 100 * (e * (1 / b)) := mul_le_mul_of_nonneg_right (by linarith) (by positivity)
  have h7 : 0 ≤ e * (1 / b) := by positivity
  linarith

/-- numbers other than one -/
theorem far_one (w : C.Big) {x : ℝ} (hr : Rep C.p C.emin x) (h0 : 0 < x) (h1 : x ≠ 1) : C.u ≤ 2 * |Real.log x| := by
  have hu := u_pos (F := C)
  have hu8 := w.u_small
  rcases lt_or_gt_of_ne h1 with h | h
  · have hl : Real.log x < 0 := Real.log_neg h0 h
    have h2 := Real.log_le_sub_one_of_pos h0
    have h3 : C.u ≤ 1 - x := by
      by_contra hc
      rw [not_le] at hc
      have := rnd_of_rep hr
      obtain ⟨m, hm⟩ := hr.grid' (e := -C.p) (by
        rw [show (C.p : ℤ) - 1 + -C.p = -1 by ring]; norm_num; linarith)
      have e : (2 : ℝ) ^ (-(C.p : ℤ)) = C.u := rfl
      have e1 : (1 : ℝ) = (2 ^ C.p : ℤ) * C.u := by
        unfold u
        push_cast
        rw [← zpow_natCast, ← zpow_add₀ (by norm_num), add_neg_cancel, zpow_zero]
      rw [e] at hm
      have h4 : (m : ℝ) < (2 ^ C.p : ℤ) := by
        refine lt_of_mul_lt_mul_right (?_ : (m : ℝ) * C.u < _) (le_of_lt hu)
        rw [← e1, ← hm]
        exact h
      have h5 : m + 1 ≤ 2 ^ C.p := by exact_mod_cast h4
      have h6 : ((m + 1 : ℤ) : ℝ) ≤ (2 ^ C.p : ℤ) := by exact_mod_cast h5
      have h7 := mul_le_mul_of_nonneg_right h6 (le_of_lt hu)
      rw [← e1] at h7
      push_cast at h7
      linarith
    rw [abs_of_neg hl]
    linarith
  · have hl := Real.log_pos h
    rw [abs_of_pos hl]
    rcases le_total x (7 / 5) with h2 | h2
    · obtain ⟨-, h3⟩ := sub_one_rep w hr h (by linarith)
      have h4 := log_ge (z := x - 1) (by linarith) (by linarith)
      rw [add_sub_cancel] at h4
      linarith
    · have h3 := Real.log_le_log (by norm_num : (0 : ℝ) < 7 / 5) h2
      have h4 := log_ge (z := 2 / 5) (by norm_num) (by norm_num)
      norm_num at h3 h4
      linarith

/-- the size of logarithms -/
theorem log_size (h : TrigFmt L C t) {x : ℝ} (hx : C.Has (.num x)) (h0 : (2 : ℝ) ^ (1 - C.emax) ≤ x) : |Real.log x| ≤ 2 ^ 30 := by
  have hx0 : 0 < x := lt_of_lt_of_le (by positivity) h0
  have hl2 := Real.log_two_lt_d9
  have hl2' := Real.log_two_gt_d9
  have he : (C.emax : ℝ) ≤ 2 ^ 30 := by exact_mod_cast le_of_lt h.emax
  have he0 : (1024 : ℝ) ≤ C.emax := by have := h.big.emax; exact_mod_cast this
  have h1 := hx.2.2
  rw [abs_of_pos hx0] at h1
  have h2 := Real.log_le_log hx0 (le_of_lt h1)
  have h3 := Real.log_le_log (by positivity) h0
  rw [Real.log_zpow] at h2 h3
  push_cast at h3
  have h4 : (C.emax : ℝ) * Real.log 2 ≤ C.emax * 1 := mul_le_mul_of_nonneg_left (by linarith) (by linarith)
  rw [abs_le]
  constructor <;> nlinarith

/-- the logarithm in the type of computation -/
theorem logC (h : TrigFmt L C t) {x : ℝ} (hx : C.Has (.num x)) (h0 : (2 : ℝ) ^ (1 - C.emax) ≤ x) :
    ∃ v l e, log L C C t (.num x) = some v ∧ Val v l ∧ Rep C.p C.emin l ∧ |l| < (2 : ℝ) ^ C.emax ∧ 0 ≤ e ∧ e ≤ 2 * C.u ∧
      (1 ≤ x → e = 0) ∧ |l - Real.log x| ≤ 64 * C.u * |Real.log x| + e := by
  have hu := u_pos (F := C)
  by_cases h1 : x = 1
  · subst h1
    refine ⟨.zero false, 0, 0, (C96_log_special L C C t).2.2.2.2.2, Val.zero _, Rep.zero, by rw [abs_zero]; positivity, le_refl _,
      by linarith, fun _ => rfl, ?_⟩
    simp
  · obtain ⟨v, v1, v2, v3, v4, v5⟩ := C96_log_partial L C C t ⟨le_refl _, le_refl _, le_refl _⟩ h.sub h.big h.tbl x hx h0 h1
    have hv := v2.eq_mkv v3
    have e6 : (2 : ℝ) ^ (6 - (C.p : ℤ)) = 64 * C.u := by
      unfold u
      rw [sub_eq_add_neg, zpow_add₀ (by norm_num)]
      norm_num
    have e1 : (2 : ℝ) ^ (1 - (C.p : ℤ)) = 2 * C.u := by
      unfold u
      rw [sub_eq_add_neg, zpow_add₀ (by norm_num)]
      norm_num
    rw [e6] at v4 v5
    rw [e1] at v5
    have hval : Val v v.val := ⟨_, hv⟩
    obtain ⟨hr, hb⟩ : Rep C.p C.emin v.val ∧ |v.val| < (2 : ℝ) ^ C.emax := by
      obtain ⟨s, x, rfl, h1, h2⟩ := v2.cases v3
      rw [val_mkv]
      exact ⟨h1, h2⟩
    have hc : C.cvt v = v := cvt_of_val hval hr hb
    rw [hc] at v1
    rcases lt_or_gt_of_ne h1 with hlt | hgt
    · exact ⟨v, v.val, 2 * C.u, v1, hval, hr, hb, by linarith, le_refl _, fun h => absurd hlt (not_lt.2 h), v5 hlt⟩
    · refine ⟨v, v.val, 0, v1, hval, hr, hb, le_refl _, by linarith, fun _ => rfl, ?_⟩
      have := v4 hgt
      rw [abs_of_pos (Real.log_pos hgt)]
      linarith

end MathLogs

end Sprout
