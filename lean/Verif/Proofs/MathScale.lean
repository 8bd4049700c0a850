import Mathlib.Algebra.Order.Field.Power
import Verif.Model.MathScale
import Verif.Proofs.FloatSimp
import Verif.Proofs.MathRound

/-! # Lemmas on powers, scaling and exponents -/

namespace Sprout

open Classical FV

namespace Fmt

variable {F C : Fmt}

theorem div_mkv {s t : Bool} {a b : ℝ} (hb0 : b ≠ 0) (h : Rep F.p F.emin (a / b)) (hb : |a / b| < (2 : ℝ) ^ F.emax) :
    F.div (mkv s a) (mkv t b) = mkv ((mkv s a).sgn != (mkv t b).sgn) (a / b) := by
  rcases eq_or_ne a 0 with rfl | ha
  · rw [mkv_zero, mkv_num t hb0]
    exact ofReal_mkv h hb
  · rw [mkv_num s ha, mkv_num t hb0]
    exact ofReal_mkv h hb

/-- powers of two which overflow -/
theorem ofReal_zpow_inf {s : Bool} {k : ℤ} (h : F.emax ≤ k) : F.ofReal s ((2 : ℝ) ^ k) = .inf false := by
  have hr : Rep F.p F.emin ((2 : ℝ) ^ k) := Rep.two_zpow _
    (by have := F.emin_le_zero; have := F.p_lt_emax; omega) F.one_le_p
  have hp : (0 : ℝ) < (2 : ℝ) ^ k := by positivity
  unfold ofReal
  rw [rnd_of_rep hr, if_neg (ne_of_gt hp), if_pos, decide_eq_false (not_lt.2 (le_of_lt hp))]
  rw [abs_of_pos hp]
  exact zpow_le_zpow_right₀ (by norm_num) h

theorem ofReal_zpow {s : Bool} {k : ℤ} (hm : F.emin ≤ k) (h : k < F.emax) : F.ofReal s ((2 : ℝ) ^ k) = .num ((2 : ℝ) ^ k) := by
  have hp : (0 : ℝ) < (2 : ℝ) ^ k := by positivity
  refine ofReal_num (Rep.two_zpow _ hm F.one_le_p) ?_ (ne_of_gt hp)
  rw [abs_of_pos hp]
  exact zpow_lt_zpow_right₀ (by norm_num) h

theorem emax_pos (F : Fmt) : 2 < F.emax := by have := F.two_le_p; have := F.p_lt_emax; omega

/-- the rounding of numbers below half the least one is zero -/
theorem rnd_tiny {r : ℝ} (h : |r| < (2 : ℝ) ^ (F.emin - 1)) : F.rnd r = 0 := by
  obtain ⟨m, e, he, _, hx⟩ := F.rnd_rep r
  have hn := F.rnd_near r 0 Rep.zero
  rw [zero_sub, abs_neg] at hn
  by_contra h0
  have hm : m ≠ 0 := by rintro rfl; apply h0; rw [hx]; simp
  have h1 : (1 : ℝ) ≤ |(m : ℝ)| := by exact_mod_cast Int.one_le_abs hm
  have h2 : (2 : ℝ) ^ F.emin ≤ |F.rnd r| := by
    rw [hx, abs_mul, abs_of_pos (by positivity : (0 : ℝ) < (2 : ℝ) ^ e)]
    calc (2 : ℝ) ^ F.emin ≤ (2 : ℝ) ^ e := zpow_le_zpow_right₀ (by norm_num) he
      _ = 1 * (2 : ℝ) ^ e := by ring
      _ ≤ _ := mul_le_mul_of_nonneg_right h1 (by positivity)
  have h3 : (2 : ℝ) ^ F.emin = 2 * (2 : ℝ) ^ (F.emin - 1) := by
    rw [zpow_sub_one₀ (by norm_num)]; ring
  have h4 : |F.rnd r| ≤ |F.rnd r - r| + |r| := by
    have := abs_add_le (F.rnd r - r) r
    simpa using this
  linarith

/-- scaling of a representable number is exact unless its result is small -/
theorem _root_.Sprout.Rep.scale {p : ℕ} {emin : ℤ} {q : ℕ} {emin' : ℤ} {x : ℝ} (h : Rep p emin x) (k : ℤ) (hp : p ≤ q)
    (hx : (2 : ℝ) ^ (emin' + p - 1) ≤ |x * (2 : ℝ) ^ k|) : Rep q emin' (x * (2 : ℝ) ^ k) := by
  obtain ⟨m, e, _, hm, rfl⟩ := h
  refine ⟨m, e + k, ?_, lt_of_lt_of_le hm (pow_le_pow_right₀ (by norm_num) hp), by
    rw [zpow_add₀ (by norm_num)]; ring⟩
  by_contra hc
  have hm' : |(m : ℝ)| < (2 : ℝ) ^ (p : ℤ) := by rw [zpow_natCast]; exact_mod_cast hm
  have h1 : |(m : ℝ) * (2 : ℝ) ^ e * (2 : ℝ) ^ k| = |(m : ℝ)| * (2 : ℝ) ^ (e + k) := by
    rw [mul_assoc, ← zpow_add₀ (by norm_num), abs_mul, abs_of_pos (by positivity : (0 : ℝ) < (2 : ℝ) ^ (e + k))]
  rw [h1] at hx
  have h2 : (2 : ℝ) ^ (e + k) ≤ (2 : ℝ) ^ (emin' - 1) := zpow_le_zpow_right₀ (by norm_num) (by omega)
  have h3 : |(m : ℝ)| * (2 : ℝ) ^ (e + k) < (2 : ℝ) ^ (p : ℤ) * (2 : ℝ) ^ (emin' - 1) :=
    lt_of_lt_of_le (mul_lt_mul_of_pos_right hm' (by positivity)) (mul_le_mul_of_nonneg_left h2 (by positivity))
  rw [← zpow_add₀ (by norm_num), show (p : ℤ) + (emin' - 1) = emin' + p - 1 by ring] at h3
  linarith

end Fmt

namespace MathScale

open Fmt MathRound

variable {F C : Fmt}

theorem mul_num (a b : ℝ) : C.mul (.num a) (.num b) = C.ofReal (decide (a < 0) != decide (b < 0)) (a * b) := rfl

theorem powNImpl_two (n : ℕ) (h : 1 ≤ n) :
    powNImpl C (.num 2) n = some (if (n : ℤ) < C.emax then .num ((2 : ℝ) ^ (n : ℤ)) else .inf false) := by
  have hem := C.emax_pos
  have hemin := C.emin_le_zero
  induction n using Nat.strong_induction_on with
  | _ n ih =>
    unfold powNImpl
    rw [if_neg (by omega)]
    by_cases h1 : n = 1
    · subst h1
      rw [if_pos rfl, if_pos (by push_cast; omega)]; norm_num
    rw [if_neg h1, ih (n / 2) (by omega) (by omega)]
    -- the square
    have hsq : ∀ k : ℕ, 1 ≤ k → pow2 C (if (k : ℤ) < C.emax then .num ((2 : ℝ) ^ (k : ℤ)) else .inf false) =
        if ((2 * k : ℕ) : ℤ) < C.emax then .num ((2 : ℝ) ^ ((2 * k : ℕ) : ℤ)) else .inf false := by
      intro k hk
      by_cases hc : (k : ℤ) < C.emax
      · rw [if_pos hc]
        unfold pow2
        rw [mul_num, ← zpow_add₀ (by norm_num)]
        have e : (k : ℤ) + k = ((2 * k : ℕ) : ℤ) := by push_cast; ring
        rw [e]
        by_cases hc2 : ((2 * k : ℕ) : ℤ) < C.emax
        · rw [if_pos hc2, ofReal_zpow (by omega) hc2]
        · rw [if_neg hc2, ofReal_zpow_inf (by omega)]
      · rw [if_neg hc, if_neg (by omega)]
        simp [pow2, Fmt.mul, sgn]
    by_cases ho : n % 2 = 1
    · rw [if_pos ho, Option.map_some, hsq _ (by omega)]
      congr 1
      by_cases hc : ((2 * (n / 2) : ℕ) : ℤ) < C.emax
      · rw [if_pos hc, mul_num]
        have e : (2 : ℝ) * (2 : ℝ) ^ ((2 * (n / 2) : ℕ) : ℤ) = (2 : ℝ) ^ (n : ℤ) := by
          have : (n : ℤ) = 1 + ((2 * (n / 2) : ℕ) : ℤ) := by omega
          rw [this, zpow_add₀ (by norm_num), zpow_one]
        rw [e]
        by_cases hc2 : (n : ℤ) < C.emax
        · rw [if_pos hc2, ofReal_zpow (by omega) hc2]
        · rw [if_neg hc2, ofReal_zpow_inf (by omega)]
      · rw [if_neg hc, if_neg (by omega)]
        simp [Fmt.mul, sgn]
    · rw [if_neg ho, Option.map_some, hsq _ (by omega)]
      have : 2 * (n / 2) = n := by omega
      rw [this]

theorem powN_pos {lo n : ℤ} (h : 0 ≤ n) (hn : n < C.emax) : powN C lo (.num 2) n = some (.num ((2 : ℝ) ^ n)) := by
  unfold powN
  rcases eq_or_lt_of_le h with rfl | h0
  · rw [if_pos rfl]; simp
  · rw [if_neg (ne_of_gt h0), if_pos h0, powNImpl_two _ (by omega), Int.toNat_of_nonneg h, if_pos hn]

theorem powN_inf {lo n : ℤ} (hn : C.emax ≤ n) : powN C lo (.num 2) n = some (.inf false) := by
  have := C.emax_pos
  unfold powN
  rw [if_neg (by omega), if_pos (by omega), powNImpl_two _ (by omega), Int.toNat_of_nonneg (by omega), if_neg (by omega)]

theorem powN_neg {lo n : ℤ} (h : n < 0) (hl : n ≠ lo) (hn : -C.emax < n) :
    powN C lo (.num 2) n = some (C.ofReal false ((2 : ℝ) ^ n)) := by
  unfold powN
  rw [if_neg (by omega), if_neg (by omega), if_neg hl, powNImpl_two _ (by omega), Int.toNat_of_nonneg (by omega),
    if_pos (by omega), Option.map_some]
  congr 1
  have hp : (0 : ℝ) < (2 : ℝ) ^ (-n) := by positivity
  show C.ofReal (decide ((1 : ℝ) < 0) != decide ((2 : ℝ) ^ (-n) < 0)) (1 / (2 : ℝ) ^ (-n)) = _
  rw [decide_eq_false (not_lt.2 zero_le_one), decide_eq_false (not_lt.2 (le_of_lt hp)), zpow_neg, one_div, inv_inv]
  rfl

theorem powN_tiny {lo n : ℤ} (hl : n ≠ lo) (hn : n ≤ -C.emax) : powN C lo (.num 2) n = some (.zero false) := by
  have := C.emax_pos
  unfold powN
  rw [if_neg (by omega), if_neg (by omega), if_neg hl, powNImpl_two _ (by omega), Int.toNat_of_nonneg (by omega),
    if_neg (by omega), Option.map_some]
  simp [Fmt.div, sgn]

theorem powN_two {lo n : ℤ} (hl : n ≠ lo) (h1 : -C.emax < n) (h2 : n < C.emax) (h3 : C.emin ≤ n) :
    powN C lo (.num 2) n = some (.num ((2 : ℝ) ^ n)) := by
  rcases le_or_gt 0 n with h | h
  · exact powN_pos h h2
  · rw [powN_neg h hl h1, ofReal_zpow h3 h2]

theorem powN_lo {lo : ℤ} (h : lo < 0) (x : FV) : powN C lo x lo = none := by
  unfold powN
  rw [if_neg (by omega), if_neg (by omega), if_pos rfl]

end MathScale

end Sprout
