import Verif.Model.Erf
import Verif.Proofs.ErfCheck
import Verif.Proofs.ErfSeries
import Mathlib.Analysis.Complex.ExponentialBounds

/-! The error function of the code against the error function -/

namespace Sprout.ErfPoly

open Sprout.Erf
open Sprout.Gamma (horner toInt)

theorem hA0 (t : ℝ) : horner erfA0 t = ev pA0 t / 10 ^ 20 := by
  simp only [horner, erfA0, pA0, ev, List.foldl]; push_cast; ring
theorem hA1 (t : ℝ) : horner erfA1 t = ev pA1 t / 10 ^ 20 := by
  simp only [horner, erfA1, pA1, ev, List.foldl]; push_cast; ring
theorem hA2 (t : ℝ) : horner erfA2 t = ev pA2 t / 10 ^ 20 := by
  simp only [horner, erfA2, pA2, ev, List.foldl]; push_cast; ring
theorem hA3 (t : ℝ) : horner erfA3 t = ev pA3 t / 10 ^ 20 := by
  simp only [horner, erfA3, pA3, ev, List.foldl]; push_cast; ring
theorem hA4 (t : ℝ) : horner erfA4 t = ev pA4 t / 10 ^ 20 := by
  simp only [horner, erfA4, pA4, ev, List.foldl]; push_cast; ring
theorem hB0 (t : ℝ) : horner erfB0 t = ev pB0 t / 10 ^ 20 := by
  simp only [horner, erfB0, pB0, ev, List.foldl]; push_cast; ring
theorem hB1 (t : ℝ) : horner erfB1 t = ev pB1 t / 10 ^ 20 := by
  simp only [horner, erfB1, pB1, ev, List.foldl]; push_cast; ring
theorem hB2 (t : ℝ) : horner erfB2 t = ev pB2 t / 10 ^ 20 := by
  simp only [horner, erfB2, pB2, ev, List.foldl]; push_cast; ring
theorem hB3 (t : ℝ) : horner erfB3 t = ev pB3 t / 10 ^ 20 := by
  simp only [horner, erfB3, pB3, ev, List.foldl]; push_cast; ring
theorem hB4 (t : ℝ) : horner erfB4 t = ev pB4 t / 10 ^ 20 := by
  simp only [horner, erfB4, pB4, ev, List.foldl]; push_cast; ring

/-- an argument of a piece as a point of `[-1, 1]` -/
theorem exists_y (a b : ℤ) (q : ℕ) (hb : 0 < b) (hq : 0 < q) (t : ℝ) (h1 : (a - b : ℝ) / q ≤ t) (h2 : t ≤ (a + b) / q) :
    ∃ y : ℝ, |y| ≤ 1 ∧ t = (a + b * y) / q := by
  have hbr : (0 : ℝ) < b := by exact_mod_cast hb
  have hqr : (0 : ℝ) < q := by exact_mod_cast hq
  rw [div_le_iff₀ hqr] at h1
  rw [le_div_iff₀ hqr] at h2
  refine ⟨(t * q - a) / b, ?_, ?_⟩
  · rw [abs_le, le_div_iff₀ hbr, div_le_iff₀ hbr]
    constructor <;> linarith
  · field_simp
    ring

/-- a piece below 2.2 -/
theorem pieceA (cs : List ℚ) (k a b : ℤ) (q : ℕ) (p ds : List ℤ) (hb : 0 < b) (hq : 0 < q) (hp : p.length = 13)
    (hh : ∀ t, horner cs t = ev p t / 10 ^ 20) (hc : checkA k a b q p (3 ^ 140) 50 ds (2 * 10 ^ 11) = true) (w t : ℝ) (hw : 0 ≤ w)
    (hw2 : w ≤ 2.2) (ht : w * w = k + t) (h1 : (a - b : ℝ) / q ≤ t) (h2 : t ≤ (a + b) / q) : |horner cs t * w - Spec.erf w| ≤ 4 / 10 ^ 19 * w := by
  obtain ⟨y, hy, rfl⟩ := exists_y a b q hb hq t h1 h2
  have h := checkA_sound k a b q hq p hp (3 ^ 140) (by positivity) 50 (by norm_num) ds _ hc y hy
  rw [← ht, ← hh] at h
  have hS : w * w ≤ 5 := by nlinarith
  refine (erf_close w _ hw 50 (3 ^ 140) (by positivity) 5 (2 / 10 ^ 19) hS (by norm_num) (by norm_num) ?_ (by norm_num)
    (by norm_num [Nat.factorial])).trans (mul_le_mul_of_nonneg_right (by norm_num) hw)
  generalize ev (tay (3 ^ 140) 50) (w * w) / ((3 ^ 140 : ℕ) : ℝ) = Z at *
  generalize horner cs ((a + b * y) / q) = H at *
  have e : H * w - cI / 10 ^ 25 * (w * Z) = (H - cI / 10 ^ 25 * Z) * w := by ring
  rw [e, abs_mul, abs_of_nonneg hw]
  exact (mul_le_mul_of_nonneg_right h hw).trans (mul_le_mul_of_nonneg_right (by norm_num) hw)

/-- a piece above 2.2 -/
theorem pieceB (cs : List ℚ) (k a b : ℤ) (q : ℕ) (p ds : List ℤ) (K N S : ℕ) (hb : 0 < b) (hq : 0 < q) (hp : p.length = 13)
    (hh : ∀ t, horner cs t = ev p t / 10 ^ 20) (hc : checkB k a b q p (3 ^ K) N ds (2 * 10 ^ 11) = true) (w t : ℝ) (hw : 0 < w)
    (hw7 : w ≤ 7) (hS : w * w ≤ S) (hS1 : 1 ≤ S) (hN : S * 2 ≤ N + 1) (hL : N * S ^ N * 10 ^ 22 ≤ 3 ^ K)
    (hF : S ^ N * 2 * 10 ^ 22 ≤ N.factorial)
    (ht : w = k + t) (h1 : (a - b : ℝ) / q ≤ t) (h2 : t ≤ (a + b) / q) : |1 - horner cs t ^ 16 - Spec.erf w| ≤ 9 / 10 ^ 19 := by
  obtain ⟨y, hy, rfl⟩ := exists_y a b q hb hq t h1 h2
  have h := checkB_sound k a b q hq p hp (3 ^ K) (by positivity) N ds _ hc y hy
  rw [← ht, ← hh] at h
  have c1 : ((S : ℕ) : ℝ) * 2 ≤ N + 1 := by exact_mod_cast hN
  have c2 : (N : ℝ) * S ^ N * 10 ^ 22 ≤ ((3 ^ K : ℕ) : ℝ) := by exact_mod_cast hL
  have c3 : (S : ℝ) ^ N * 2 * 10 ^ 22 ≤ N.factorial := by exact_mod_cast hF
  have hf : (0 : ℝ) < N.factorial := by positivity
  have h3 : (0 : ℝ) < ((3 ^ K : ℕ) : ℝ) := by positivity
  refine (erf_close w _ hw.le N (3 ^ K) (by positivity) S (2 / 10 ^ 19 / w) hS (by exact_mod_cast hS1) ?_ ?_ ?_ ?_).trans ?_
  · rw [div_le_iff₀ (by positivity)]
    linarith
  · refine h.trans ?_
    rw [div_mul_cancel₀ _ hw.ne']
    norm_num
  · rw [div_le_iff₀ h3]
    linarith
  · rw [div_mul_eq_mul_div, div_le_iff₀ hf]
    linarith
  · rw [add_mul, div_mul_cancel₀ _ hw.ne']
    norm_num
    linarith

theorem toInt_eq (x : ℝ) (k : ℤ) (hx : 0 ≤ x) (h1 : (k : ℝ) ≤ x) (h2 : x < k + 1) : toInt x = k := by
  rw [toInt, if_neg (not_lt.mpr hx), Int.floor_eq_iff]
  exact ⟨h1, h2⟩

/-- the value below 2.2 -/
theorem lowA (w : ℝ) (hw : 0 ≤ w) (hw2 : w < 2.2) : |horner (erfA (toInt (w * w))) (frac (w * w)) * w - Spec.erf w| ≤ 4 / 10 ^ 19 * w := by
  have h0 : 0 ≤ w * w := mul_nonneg hw hw
  have h5 : w * w < 4.84 := by norm_num at hw2 ⊢; nlinarith
  norm_num at h5
  rcases lt_or_ge (w * w) 1 with h | h
  · have e := toInt_eq (w * w) 0 h0 (by simpa using h0) (by simpa using h)
    rw [frac, e]
    exact pieceA erfA0 0 500 501 1001 pA0 dA0 (by norm_num) (by norm_num) rfl hA0 checkA0 w _ hw hw2.le (by push_cast; ring)
      (by push_cast; linarith) (by push_cast; linarith)
  rcases lt_or_ge (w * w) 2 with h' | h'
  · have e := toInt_eq (w * w) 1 h0 (by push_cast; linarith) (by push_cast; linarith)
    rw [frac, e]
    exact pieceA erfA1 1 500 501 1001 pA1 dA1 (by norm_num) (by norm_num) rfl hA1 checkA1 w _ hw hw2.le (by push_cast; ring)
      (by push_cast; linarith) (by push_cast; linarith)
  rcases lt_or_ge (w * w) 3 with h3 | h3
  · have e := toInt_eq (w * w) 2 h0 (by push_cast; linarith) (by push_cast; linarith)
    rw [frac, e]
    exact pieceA erfA2 2 500 501 1001 pA2 dA2 (by norm_num) (by norm_num) rfl hA2 checkA2 w _ hw hw2.le (by push_cast; ring)
      (by push_cast; linarith) (by push_cast; linarith)
  rcases lt_or_ge (w * w) 4 with h4 | h4
  · have e := toInt_eq (w * w) 3 h0 (by push_cast; linarith) (by push_cast; linarith)
    rw [frac, e]
    exact pieceA erfA3 3 500 501 1001 pA3 dA3 (by norm_num) (by norm_num) rfl hA3 checkA3 w _ hw hw2.le (by push_cast; ring)
      (by push_cast; linarith) (by push_cast; linarith)
  · have e := toInt_eq (w * w) 4 h0 (by push_cast; linarith) (by push_cast; linarith)
    rw [frac, e]
    exact pieceA erfA4 4 8 8 19 pA4 dA4 (by norm_num) (by norm_num) rfl hA4 checkA4 w _ hw hw2.le (by push_cast; ring)
      (by push_cast; linarith) (by push_cast; linarith)

theorem lastB (w t : ℝ) (ht : w = 6 + t) (h0 : 0 ≤ t) (h1 : t ≤ 0.9) : |1 - horner erfB4 t ^ 16 - Spec.erf w| ≤ 9 / 10 ^ 19 := by
  norm_num at h1
  exact pieceB erfB4 6 5 5 11 pB4 dB4 690 175 48 (by norm_num) (by norm_num) rfl hB4 checkB4 w t (by linarith) (by linarith) (by push_cast; nlinarith)
    (by norm_num) (by norm_num) (by decide +kernel) (by decide +kernel) (by push_cast; exact ht) (by push_cast; linarith) (by push_cast; linarith)

/-- the value between 2.2 and 6.9 -/
theorem midB (w : ℝ) (hw : 2.2 ≤ w) (hw2 : w < 6.9) : |1 - horner (erfB (toInt w - 2)) (frac w) ^ 16 - Spec.erf w| ≤ 9 / 10 ^ 19 := by
  norm_num at hw hw2
  have h0' : 0 < w := by linarith
  have h0 := h0'.le
  rcases lt_or_ge w 3 with h | h
  · have e := toInt_eq w 2 h0 (by push_cast; linarith) (by push_cast; linarith)
    rw [frac, e]
    exact pieceB erfB0 2 600 401 1001 pB0 dB0 200 60 9 (by norm_num) (by norm_num) rfl hB0 checkB0 w _ h0' (by linarith) (by push_cast; nlinarith)
      (by norm_num) (by norm_num) (by decide +kernel) (by decide +kernel) (by push_cast; ring) (by push_cast; linarith) (by push_cast; linarith)
  rcases lt_or_ge w 4 with h' | h'
  · have e := toInt_eq w 3 h0 (by push_cast; linarith) (by push_cast; linarith)
    rw [frac, e]
    exact pieceB erfB1 3 500 501 1001 pB1 dB1 270 85 16 (by norm_num) (by norm_num) rfl hB1 checkB1 w _ h0' (by linarith) (by push_cast; nlinarith)
      (by norm_num) (by norm_num) (by decide +kernel) (by decide +kernel) (by push_cast; ring) (by push_cast; linarith) (by push_cast; linarith)
  rcases lt_or_ge w 5 with h3 | h3
  · have e := toInt_eq w 4 h0 (by push_cast; linarith) (by push_cast; linarith)
    rw [frac, e]
    exact pieceB erfB2 4 500 501 1001 pB2 dB2 390 112 25 (by norm_num) (by norm_num) rfl hB2 checkB2 w _ h0' (by linarith) (by push_cast; nlinarith)
      (by norm_num) (by norm_num) (by decide +kernel) (by decide +kernel) (by push_cast; ring) (by push_cast; linarith) (by push_cast; linarith)
  rcases lt_or_ge w 6 with h4 | h4
  · have e := toInt_eq w 5 h0 (by push_cast; linarith) (by push_cast; linarith)
    rw [frac, e]
    exact pieceB erfB3 5 500 501 1001 pB3 dB3 520 140 36 (by norm_num) (by norm_num) rfl hB3 checkB3 w _ h0' (by linarith) (by push_cast; nlinarith)
      (by norm_num) (by norm_num) (by decide +kernel) (by decide +kernel) (by push_cast; ring) (by push_cast; linarith) (by push_cast; linarith)
  · have e := toInt_eq w 6 h0 (by push_cast; linarith) (by push_cast; linarith)
    rw [frac, e]
    exact lastB w _ (by push_cast; ring) (by push_cast; linarith) (by push_cast; norm_num; linarith)

/-- the last polynomial at 6.9 -/
theorem tail_poly : |horner erfB4 0.9 ^ 16| ≤ 1 / 10 ^ 20 := by
  simp only [horner, erfB4, List.foldl]
  push_cast
  norm_num [abs_le]

/-- the value from 6.9 -/
theorem tailC (w : ℝ) (hw : 6.9 ≤ w) : |1 - Spec.erf w| ≤ 1 / 10 ^ 18 := by
  have h := lastB 6.9 0.9 (by norm_num) (by norm_num) le_rfl
  have h2 := tail_poly
  have h3 := erf_mono _ _ hw
  have h4 := erf_le_one w (by norm_num at hw; linarith)
  rw [abs_le] at *
  constructor
  · linarith
  · have := h.2
    have := h2.2
    norm_num at *
    linarith [h.1, h2.1]

theorem min_low (w : ℝ) (h : w < 2.2) (hw : 0 ≤ w) : 4 / 10 ^ 19 * w ≤ min w 1 / 10 ^ 18 := by
  norm_num at h
  rcases min_cases w 1 with ⟨e, _⟩ | ⟨e, _⟩ <;> rw [e] <;> norm_num <;> linarith

theorem min_high (w : ℝ) (h : 2.2 ≤ w) : min w 1 / 10 ^ 18 = 1 / 10 ^ 18 := by
  norm_num at h
  rw [min_eq_right (by linarith)]

/-- the value for an argument that is not negative -/
theorem impl1_bound (x w : ℝ) (hw : 0 ≤ w) : |(if x < 0 then -impl1 x w else impl1 x w) - Spec.erf w| ≤ min w 1 / 10 ^ 18 := by
  have key : ∀ y : ℝ, (if x < 0 then -impl3 x y else impl3 x y) = y := by
    intro y
    unfold impl3
    split_ifs <;> simp
  by_cases h2 : w < 2.2
  · have e : impl1 x w = impl3 x (horner (erfA (toInt (w * w))) (frac (w * w)) * w) := by rw [impl1, if_pos h2, impl2a, impl2a1]
    rw [e, key]
    exact (lowA w hw h2).trans (min_low w h2 hw)
  rw [min_high w (not_lt.mp h2)]
  by_cases h3 : w < 6.9
  · have e : impl1 x w = impl3 x (1 - horner (erfB (toInt w - 2)) (frac w) ^ 16) := by rw [impl1, if_neg h2, if_pos h3, impl2b]
    rw [e, key]
    exact (midB w (not_lt.mp h2) h3).trans (by norm_num)
  · have e : impl1 x w = impl3 x 1 := by rw [impl1, if_neg h2, if_neg h3]
    rw [e, key]
    exact tailC w (not_lt.mp h3)

theorem erf_bound (x : ℝ) : |Erf.erf x - Spec.erf x| ≤ min |x| 1 / 10 ^ 18 := by
  unfold Erf.erf Erf.impl
  split_ifs with h0 hx
  · subst h0
    simp [Spec.erf]
  · have := impl1_bound x (-x) (by linarith)
    rw [if_pos hx, erf_neg] at this
    rw [← abs_neg, abs_of_neg hx]
    convert this using 2
    ring
  · have := impl1_bound x x (not_lt.mp hx)
    rw [abs_of_nonneg (not_lt.mp hx)]
    rwa [if_neg hx] at this

/-- the error function is not small -/
theorem erf_ge (x : ℝ) (hx : 0 ≤ x) (hx2 : x ≤ 2.2) : x / 243 ≤ Spec.erf x := by
  have h := gauss_ge x hx
  have h5 : x ^ 2 ≤ 5 := by norm_num at hx2; nlinarith
  have e1 : Real.exp 5 ≤ 243 := by
    have h1 := Real.exp_one_lt_three
    have : Real.exp 5 = Real.exp 1 ^ 5 := by rw [← Real.exp_nat_mul]; norm_num
    rw [this]
    refine (pow_le_pow_left₀ (Real.exp_pos 1).le h1.le 5).trans (by norm_num)
  have e2 : 1 / 243 ≤ Real.exp (-x ^ 2) := by
    refine le_trans ?_ (Real.exp_le_exp.mpr (by linarith : -5 ≤ -x ^ 2))
    rw [Real.exp_neg, ← one_div]
    exact one_div_le_one_div_of_le (Real.exp_pos 5) e1
  have h6 := mul_le_mul_of_nonneg_right e2 hx
  have c1 : 1 ≤ 2 / √Real.pi := by
    have := (abs_le.mp c_bound).1
    norm_num [cI] at this
    linarith
  have g := gauss_nonneg x hx
  unfold Spec.erf
  nlinarith

/-- the error function is below one by more than the error at 2.2 -/
theorem erf_low (x : ℝ) (hx : x ≤ 2.2) : Spec.erf x ≤ 1 - 1 / 10 ^ 17 := by
  have h := midB 2.2 le_rfl (by norm_num)
  have e := toInt_eq 2.2 2 (by norm_num) (by norm_num) (by norm_num)
  rw [frac, e] at h
  have hp : 1 / 10 ^ 16 ≤ horner (erfB (2 - 2)) (2.2 - (2 : ℤ)) ^ 16 := by
    simp only [horner, erfB, sub_self, if_true, erfB0, List.foldl]
    push_cast
    norm_num
  have := erf_mono _ _ hx
  have := (abs_le.mp h).1
  norm_num at *
  linarith

end Sprout.ErfPoly
