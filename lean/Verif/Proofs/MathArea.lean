import Verif.Model.MathArea
import Verif.Proofs.MathLogs
import Verif.Props.C99
import Verif.Props.C93
import Mathlib.Analysis.SpecialFunctions.Arsinh
import Mathlib.Analysis.SpecialFunctions.Arcosh
import Mathlib.Analysis.SpecialFunctions.Artanh

/-! # Lemmas for the inverse hyperbolic functions -/

namespace Sprout

open Classical FV Fmt MathTables MathConst MathExp MathLog MathTrig MathHyp MathLogs MathSqrt

namespace MathArea

variable {L F C : Fmt} {t : FloatTy}

/-- the logarithm of an approximation -/
theorem log_near (h : TrigFmt L C t) {v : FV} {r A k : ℝ} (hv : Val v r) (hr : Rep C.p C.emin r)
    (hlo : 1 / 10 ^ 50 ≤ A) (hhi : A ≤ 10 ^ 50) (hk0 : 0 ≤ k) (hk : k * C.u ≤ 1 / 100) (he : |r - A| ≤ k * C.u * A) :
    ∃ l z, log L C C t v = some l ∧ Val l z ∧ Rep C.p C.emin z ∧ |z| < (2 : ℝ) ^ C.emax ∧
      |z - Real.log A| ≤ (64 * |Real.log A| + 2 + 2 * k) * C.u := by
  have hu := u_pos (F := C)
  have hu8 := h.big.u_small
  have hem := h.big.emax
  have hM := NearR.big_max30 h.big
  have hA : 0 < A := lt_of_lt_of_le (by norm_num) hlo
  obtain ⟨d, hd⟩ : ∃ d, d = k * C.u := ⟨_, rfl⟩
  rw [← hd] at he hk
  have hd0 : 0 ≤ d := by rw [hd]; positivity
  obtain ⟨e1, e2⟩ := abs_le.1 he
  have hdA : d * A ≤ 1 / 100 * A := mul_le_mul_of_nonneg_right hk (le_of_lt hA)
  have hr0 : 0 < r := by linarith
  have hM2 : (2 : ℝ) ^ (C.emax - 1) ≤ (2 : ℝ) ^ C.emax := zpow_le_zpow_right₀ (by norm_num) (by omega)
  have hlo2 : (2 : ℝ) ^ (1 - C.emax) ≤ r := by
    have : (2 : ℝ) ^ (1 - C.emax) ≤ (2 : ℝ) ^ (-180 : ℤ) := zpow_le_zpow_right₀ (by norm_num) (by omega)
    have h2 : (2 : ℝ) ^ (-180 : ℤ) ≤ 1 / 2 * (1 / 10 ^ 50) := by norm_num
    have h3 : 1 / 2 * (1 / 10 ^ 50) ≤ r := by linarith
    exact le_trans this (le_trans h2 h3)
  have hrC : C.Has (.num r) := ⟨ne_of_gt hr0, hr, by
    rw [abs_of_pos hr0]
    have : (2 : ℝ) * 10 ^ 50 < 10 ^ 60 := by norm_num
    linarith⟩
  rw [hv.eq_num (ne_of_gt hr0)]
  obtain ⟨l, z, e, l1, l2, l3, l4, l5, l6, -, l8⟩ := logC (t := t) h hrC hlo2
  refine ⟨l, z, l1, l2, l3, l4, ?_⟩
  have hq : |Real.log r - Real.log A| ≤ 102 / 100 * d := by
    rw [← Real.log_div (ne_of_gt hr0) (ne_of_gt hA)]
    have q1 : r / A ≤ 1 + d := by rw [div_le_iff₀ hA]; linarith
    have q2 : 1 - d ≤ r / A := by rw [le_div_iff₀ hA]; linarith
    have q0 : 0 < r / A := by positivity
    rw [abs_le]
    constructor
    · have a := Real.one_sub_inv_le_log_of_pos q0
      have b : (r / A)⁻¹ ≤ 1 + 102 / 100 * d := by
        rw [inv_le_iff_one_le_mul₀ q0]
        have : (1 + 102 / 100 * d) * (1 - d) ≤ (1 + 102 / 100 * d) * (r / A) := mul_le_mul_of_nonneg_left q2 (by linarith)
        nlinarith
      linarith
    · have a := Real.log_le_sub_one_of_pos q0
      linarith
  have h1 : |Real.log r| ≤ |Real.log A| + 102 / 100 * d := by
    have := abs_add_le (Real.log r - Real.log A) (Real.log A)
    rw [sub_add_cancel] at this
    linarith
  have h2 : |z - Real.log A| ≤ |z - Real.log r| + |Real.log r - Real.log A| := abs_sub_le _ _ _
  have h3 : 64 * C.u * |Real.log r| ≤ 64 * C.u * (|Real.log A| + 102 / 100 * d) := mul_le_mul_of_nonneg_left h1 (by positivity)
  have h4 : 64 * C.u * (102 / 100 * d) ≤ 1 / 2 * d := by nlinarith
  have h5 : (64 * |Real.log A| + 2 + 2 * k) * C.u = 64 * C.u * |Real.log A| + 2 * C.u + 2 * d := by rw [hd]; ring
  rw [h5]
  linarith

/-- the square root of an approximation, of which `e` is the absolute error -/
theorem sqrt_near (w : C.Big) {v : FV} {s b e : ℝ} (hv : Val v s) (hr : Rep C.p C.emin s) (hs : 0 < s)
    (hlt : s < (2 : ℝ) ^ C.emax) (hb : 0 < b) (he : |s - b| ≤ e) :
    ∃ v' r, sqrt C C v = some v' ∧ Val v' r ∧ Rep C.p C.emin r ∧
      |r - Real.sqrt b| ≤ 2 * C.u * Real.sqrt b + (1 + 2 * C.u) * (e / Real.sqrt b) := by
  have hu := u_pos (F := C)
  rw [hv.eq_num (ne_of_gt hs)]
  obtain ⟨v', h1, h2, h3, h4⟩ := C93_sqrt_partial C w.wide s hs ⟨ne_of_gt hs, hr, by rw [abs_of_pos hs]; exact hlt⟩
  have e1 : (2 : ℝ) ^ (1 - (C.p : ℤ)) = 2 * C.u := by
    unfold u
    rw [sub_eq_add_neg, zpow_add₀ (by norm_num), zpow_one]
  rw [e1] at h4
  obtain ⟨sg, y, y1, y2, y3⟩ := h2.cases h3
  have hy : Val v' y := ⟨sg, y1⟩
  rw [hy.val] at h4
  refine ⟨v', y, h1, hy, y2, ?_⟩
  have hB : 0 < Real.sqrt b := Real.sqrt_pos.2 hb
  have hS : 0 < Real.sqrt s := Real.sqrt_pos.2 hs
  have hd : |Real.sqrt s - Real.sqrt b| ≤ e / Real.sqrt b := by
    rw [le_div_iff₀ hB]
    refine le_trans ?_ he
    have : s - b = (Real.sqrt s - Real.sqrt b) * (Real.sqrt s + Real.sqrt b) := by
      have a := Real.mul_self_sqrt (le_of_lt hs)
      have c := Real.mul_self_sqrt (le_of_lt hb)
      linear_combination -a + c
    rw [this, abs_mul, abs_of_pos (a := Real.sqrt s + Real.sqrt b) (by linarith)]
    exact mul_le_mul_of_nonneg_left (by linarith) (abs_nonneg _)
  have h5 : Real.sqrt s ≤ Real.sqrt b + e / Real.sqrt b := by linarith [(abs_le.1 hd).2]
  have h6 : |y - Real.sqrt b| ≤ |y - Real.sqrt s| + |Real.sqrt s - Real.sqrt b| := abs_sub_le _ _ _
  have h7 := mul_le_mul_of_nonneg_left h5 (show 0 ≤ 2 * C.u by linarith)
  nlinarith

/-- the logarithm of the sum of an approximation and a value -/
theorem log_sum (h : TrigFmt L C t) {v : FV} {x r R e k : ℝ} (hx : C.Has (.num x)) (hv : Val v r) (hr : Rep C.p C.emin r)
    (he : |r - R| ≤ e) (hlo : 1 / 10 ^ 50 ≤ x + R) (hhi : x + R ≤ 10 ^ 50) (hk0 : 0 ≤ k) (hk : k * C.u ≤ 1 / 200)
    (hek : e ≤ k * C.u * (x + R)) :
    ∃ l z, log L C C t (C.add (.num x) v) = some l ∧ Val l z ∧ Rep C.p C.emin z ∧ |z| < (2 : ℝ) ^ C.emax ∧
      |z - Real.log (x + R)| ≤ (64 * |Real.log (x + R)| + 6 + 2 * k) * C.u := by
  have hu := u_pos (F := C)
  have hu8 := h.big.u_small
  have hM := NearR.big_max30 h.big
  have hA : 0 < x + R := lt_of_lt_of_le (by norm_num) hlo
  have h1 := rnd_add_rel hx.2.1 hr
  have h2 : |(x + r) - (x + R)| ≤ k * C.u * (x + R) := by
    rw [show x + r - (x + R) = r - R by ring]; linarith
  have h3 : |x + r| ≤ 2 * (x + R) := by
    have := abs_add_le ((x + r) - (x + R)) (x + R)
    rw [sub_add_cancel, abs_of_pos hA] at this
    have h4 : k * C.u * (x + R) ≤ 1 / 200 * (x + R) := mul_le_mul_of_nonneg_right hk (le_of_lt hA)
    linarith
  have hval := add_val (F := C) (Val.num hx.1) hv (rnd_lt_emax (by
    have : (2 : ℝ) * 10 ^ 50 ≤ 10 ^ 60 := by norm_num
    linarith))
  obtain ⟨l, z, l1, l2, l3, l4, l5⟩ := log_near (t := t) h hval (C.rnd_rep _) hlo hhi (k := k + 2) (by linarith) (by nlinarith) (by
    have a := abs_sub_le (C.rnd (x + r)) (x + r) (x + R)
    have b := mul_le_mul_of_nonneg_left h3 (le_of_lt hu)
    linarith)
  exact ⟨l, z, l1, l2, l3, l4, le_trans l5 (le_of_eq (by ring))⟩

/-- squares -/
theorem sq_val (w : C.Big) {x : ℝ} (hx : C.Has (.num x)) (hb : |x| ≤ 10 ^ 20) :
    Val (C.mul (.num x) (.num x)) (C.rnd (x * x)) ∧ |C.rnd (x * x) - x ^ 2| ≤ C.u * x ^ 2 + (2 : ℝ) ^ C.emin / 2 ∧ x ^ 2 ≤ 10 ^ 40 := by
  have hM := NearR.big_max30 w
  have h2 : x ^ 2 ≤ 10 ^ 40 := by
    rw [← sq_abs]
    have := pow_le_pow_left₀ (abs_nonneg x) hb 2
    linarith
  have e : x * x = x ^ 2 := by ring
  refine ⟨mul_val (Val.num hx.1) (Val.num hx.1) (rnd_lt_emax ?_), ?_, h2⟩
  · rw [e, abs_of_nonneg (by positivity)]
    have : (10 : ℝ) ^ 40 ≤ 10 ^ 60 := by norm_num
    linarith
  · have := rnd_err (F := C) (x * x)
    rw [abs_of_nonneg (mul_self_nonneg x)] at this
    rwa [← e]

/-- `asinh_impl`, where the root is at most `K` times the sum -/
theorem asinh_core (h : TrigFmt L C t) {x K : ℝ} (hx : C.Has (.num x)) (hb : |x| ≤ 10 ^ 20) (hK1 : 1 ≤ K)
    (hK : Real.sqrt (1 + x ^ 2) ≤ K * (x + Real.sqrt (1 + x ^ 2))) (hKu : K * C.u ≤ 1 / 2000) :
    ∃ l z, asinhImpl L C t (.num x) = some l ∧ Val l z ∧ Rep C.p C.emin z ∧ |z| < (2 : ℝ) ^ C.emax ∧
      |z - Real.arsinh x| ≤ (64 * |Real.arsinh x| + 6 + 10 * K) * C.u := by
  have w := h.big
  have hu := u_pos (F := C)
  have hu8 := w.u_small
  have hM := NearR.big_max30 w
  have hη := NearR.eta_rel w
  have hη0 : (0 : ℝ) < (2 : ℝ) ^ C.emin := by positivity
  have hη' : (2 : ℝ) ^ C.emin ≤ C.u / 100 := by
    have : C.u * (1 / 10 ^ 60) ≤ C.u * (1 / 100) := mul_le_mul_of_nonneg_left (by norm_num) (le_of_lt hu)
    linarith
  obtain ⟨s1, s2, s3⟩ := sq_val w hx hb
  obtain ⟨m, hm⟩ : ∃ m, m = C.rnd (x * x) := ⟨_, rfl⟩
  have hmr : Rep C.p C.emin m := hm ▸ C.rnd_rep _
  rw [← hm] at s1 s2
  have hX : 0 ≤ x ^ 2 := by positivity
  have hm0 : 0 ≤ m := by rw [hm]; exact rnd_nonneg (by rw [show x * x = x ^ 2 by ring]; exact hX)
  obtain ⟨m1, m2⟩ := abs_le.1 s2
  have huX : C.u * x ^ 2 ≤ 1 / 100 * x ^ 2 := mul_le_mul_of_nonneg_right (by linarith) hX
  have h40 : (10 : ℝ) ^ 40 * 4 ≤ 10 ^ 60 := by norm_num
  have hsum := rnd_add_rel hmr C.rep_one
  rw [abs_of_nonneg (a := m + 1) (by linarith)] at hsum
  have hval := add_val (F := C) s1 (Val.num one_ne_zero) (rnd_lt_emax (by
    rw [abs_of_nonneg (by linarith)]; linarith))
  obtain ⟨s, hs⟩ : ∃ s, s = C.rnd (m + 1) := ⟨_, rfl⟩
  rw [← hs] at hval hsum
  have hsr : Rep C.p C.emin s := hs ▸ C.rnd_rep _
  have hs1 : 1 ≤ s := by rw [hs]; exact le_rnd (by linarith) C.rep_one
  have hum : C.u * (m + 1) ≤ C.u * (102 / 100 * (1 + x ^ 2)) := mul_le_mul_of_nonneg_left (by linarith) (le_of_lt hu)
  have hse : |s - (1 + x ^ 2)| ≤ 21 / 10 * C.u * (1 + x ^ 2) := by
    have a := abs_sub_le s (m + 1) (1 + x ^ 2)
    rw [show m + 1 - (1 + x ^ 2) = m - x ^ 2 by ring] at a
    nlinarith
  have hM2 : (2 : ℝ) ^ (C.emax - 1) ≤ (2 : ℝ) ^ C.emax := zpow_le_zpow_right₀ (by norm_num) (by omega)
  have hslt : s < (2 : ℝ) ^ C.emax := by
    have := (abs_le.1 hsum).2
    linarith
  have hb0 : 0 < 1 + x ^ 2 := by linarith
  obtain ⟨v, r, v1, v2, v3, v4⟩ := sqrt_near w hval hsr (by linarith) hslt hb0 hse
  obtain ⟨R, hR⟩ : ∃ R, R = Real.sqrt (1 + x ^ 2) := ⟨_, rfl⟩
  rw [← hR] at v4 hK
  have hR1 : 1 ≤ R := by rw [hR, Real.one_le_sqrt]; linarith
  have hRR : R * R = 1 + x ^ 2 := by rw [hR]; exact Real.mul_self_sqrt (le_of_lt hb0)
  have hq : 21 / 10 * C.u * (1 + x ^ 2) / R = 21 / 10 * C.u * R := by
    rw [← hRR]; field_simp
  rw [hq] at v4
  have hRe : |r - R| ≤ 5 * C.u * R := by
    refine le_trans v4 ?_
    have : (1 + 2 * C.u) * (21 / 10 * C.u * R) ≤ (12 / 10) * (21 / 10 * C.u * R) :=
      mul_le_mul_of_nonneg_right (by linarith) (by positivity)
    nlinarith [mul_pos hu (show 0 < R by linarith)]
  have hxR : |x| ≤ R := by
    rw [hR]; exact Real.abs_le_sqrt (by linarith)
  have hRle : R ≤ 2 * 10 ^ 20 := by
    rw [hR, Real.sqrt_le_left (by norm_num)]
    norm_num
    norm_num at s3
    linarith
  have hA1 : 1 / 10 ^ 50 ≤ x + R := by
    have hp : (R + x) * (R - x) = 1 := by linear_combination hRR
    have h1 : R - x ≤ 3 * 10 ^ 20 + 1 := by linarith [neg_abs_le x, abs_nonneg x]
    have h0 : 0 ≤ R + x := by linarith [neg_abs_le x]
    have h2 : (R + x) * (R - x) ≤ (R + x) * (3 * 10 ^ 20 + 1) := mul_le_mul_of_nonneg_left h1 h0
    rw [hp] at h2
    norm_num at h2 ⊢
    linarith
  have hA2 : x + R ≤ 10 ^ 50 := by
    have : (3 : ℝ) * 10 ^ 20 ≤ 10 ^ 50 := by norm_num
    linarith [le_abs_self x]
  obtain ⟨l, z, l1, l2, l3, l4, l5⟩ := log_sum (t := t) h hx v2 v3 hRe hA1 hA2 (k := 5 * K) (by linarith) (by linarith) (by
    have := mul_le_mul_of_nonneg_left hK (show 0 ≤ 5 * C.u by linarith)
    linarith [show 5 * C.u * (K * (x + R)) = 5 * K * C.u * (x + R) by ring])
  refine ⟨l, z, ?_, l2, l3, l4, ?_⟩
  · unfold asinhImpl
    rw [v1, Option.bind_some, l1]
  · unfold Real.arsinh
    rw [← hR]
    exact le_trans l5 (le_of_eq (by ring))

/-- the root in `acosh_impl` -/
theorem acosh_root (w : C.Big) {x : ℝ} (hx : C.Has (.num x)) (h1 : 1 < x) (hb : x ≤ 10 ^ 20) :
    ∃ v r R q, sqrt C C (C.sub (C.mul (.num x) (.num x)) (.num 1)) = some v ∧ Val v r ∧ Rep C.p C.emin r ∧
      R = Real.sqrt (x ^ 2 - 1) ∧ 0 < R ∧ R ≤ x ∧ q = x / R ∧ 1 ≤ q ∧ q * C.u ≤ 1 / 10 ^ 4 ∧
      |r - R| ≤ 2 * C.u * x + 3 * C.u * (q * x) := by
  have hu := u_pos (F := C)
  have hu8 := w.u_small
  have hM := NearR.big_max30 w
  have hη := NearR.eta_rel w
  have hη0 : (0 : ℝ) < (2 : ℝ) ^ C.emin := by positivity
  have hη' : (2 : ℝ) ^ C.emin ≤ C.u / 100 := by
    have : C.u * (1 / 10 ^ 60) ≤ C.u * (1 / 100) := mul_le_mul_of_nonneg_left (by norm_num) (le_of_lt hu)
    linarith
  obtain ⟨s1, s2, s3⟩ := sq_val w hx (by rw [abs_of_pos (by linarith)]; exact hb)
  have hX : 1 ≤ x ^ 2 := one_le_pow₀ (le_of_lt h1)
  -- the least value above one
  have hx2 : 1 + C.u ≤ x := by
    obtain ⟨k, hk⟩ := one_grid w hx.2.1 (by linarith)
    have : 0 < (k : ℝ) := by
      by_contra hc
      have := mul_nonpos_of_nonpos_of_nonneg (not_lt.1 hc) (le_of_lt hu)
      linarith
    have h2 : (1 : ℝ) ≤ k := by exact_mod_cast this
    nlinarith
  obtain ⟨m, hm⟩ : ∃ m, m = C.rnd (x * x) := ⟨_, rfl⟩
  have hmr : Rep C.p C.emin m := hm ▸ C.rnd_rep _
  have hm1 : 1 + C.u ≤ m := by
    have hxm : x ≤ m := by rw [hm]; exact le_rnd (by nlinarith) hx.2.1
    linarith
  rw [← hm] at s1 s2
  obtain ⟨m1, m2⟩ := abs_le.1 s2
  have huX : C.u * x ^ 2 ≤ 1 / 100 * x ^ 2 := mul_le_mul_of_nonneg_right (by linarith) (by linarith)
  have h40 : (10 : ℝ) ^ 40 * 4 ≤ 10 ^ 60 := by norm_num
  have hone : Rep C.p C.emin (-1) := C.rep_one.neg
  have hsum := rnd_add_rel hmr hone
  rw [← sub_eq_add_neg, abs_of_nonneg (a := m - 1) (by linarith)] at hsum
  have hval := sub_val (F := C) s1 (Val.num one_ne_zero) (rnd_lt_emax (by
    rw [abs_of_nonneg (by linarith)]; linarith))
  obtain ⟨s, hs⟩ : ∃ s, s = C.rnd (m - 1) := ⟨_, rfl⟩
  rw [← hs] at hval hsum
  have hsr : Rep C.p C.emin s := hs ▸ C.rnd_rep _
  have hum : C.u * (m - 1) ≤ C.u * (102 / 100 * x ^ 2) := mul_le_mul_of_nonneg_left (by linarith) (le_of_lt hu)
  have hum' : C.u * (m - 1) ≤ 1 / 2 * (m - 1) := mul_le_mul_of_nonneg_right (by linarith) (by linarith)
  have hs0 : 0 < s := by linarith [(abs_le.1 hsum).1]
  have hse : |s - (x ^ 2 - 1)| ≤ 21 / 10 * C.u * x ^ 2 := by
    have a := abs_sub_le s (m - 1) (x ^ 2 - 1)
    rw [show m - 1 - (x ^ 2 - 1) = m - x ^ 2 by ring] at a
    nlinarith
  have hM2 : (2 : ℝ) ^ (C.emax - 1) ≤ (2 : ℝ) ^ C.emax := zpow_le_zpow_right₀ (by norm_num) (by omega)
  have hslt : s < (2 : ℝ) ^ C.emax := by
    have := (abs_le.1 hsum).2
    linarith
  have hb0 : 0 < x ^ 2 - 1 := by nlinarith
  obtain ⟨v, r, v1, v2, v3, v4⟩ := sqrt_near w hval hsr hs0 hslt hb0 hse
  obtain ⟨R, hR⟩ : ∃ R, R = Real.sqrt (x ^ 2 - 1) := ⟨_, rfl⟩
  rw [← hR] at v4
  have hR0 : 0 < R := by rw [hR]; exact Real.sqrt_pos.2 hb0
  have hRR : R * R = x ^ 2 - 1 := by rw [hR]; exact Real.mul_self_sqrt (le_of_lt hb0)
  have hRx : R ≤ x := by rw [hR, Real.sqrt_le_left (by linarith)]; linarith
  obtain ⟨q, hq⟩ : ∃ q, q = x / R := ⟨_, rfl⟩
  have hqR : q * R = x := by rw [hq]; field_simp
  have hq1 : 1 ≤ q := by rw [hq, le_div_iff₀ hR0]; linarith
  rw [show 21 / 10 * C.u * x ^ 2 / R = 21 / 10 * C.u * (q * x) by rw [hq]; field_simp] at v4
  have hqu : q * C.u ≤ 1 / 10 ^ 4 := by
    -- `R * R ≥ 2 u`, so `q² u² ≤ x² u² / (x² - 1) ≤ u`
    have a1 : 2 * C.u ≤ R * R := by rw [hRR]; nlinarith
    have a2 : C.u * x ^ 2 ≤ 2 * (R * R) := by rw [hRR]; nlinarith
    have a3 : (q * C.u) ^ 2 * (R * R) = C.u * (C.u * x ^ 2) := by rw [← hqR]; ring
    have a4 : C.u * (C.u * x ^ 2) ≤ C.u * (2 * (R * R)) := mul_le_mul_of_nonneg_left a2 (le_of_lt hu)
    have a5 : (q * C.u) ^ 2 ≤ 2 * C.u := by
      have : 0 < R * R := by positivity
      refine le_of_mul_le_mul_right ?_ this
      linarith
    have a6 : 2 * C.u ≤ (1 / 10 ^ 4) ^ 2 := by
      have := w.u_le
      norm_num at this ⊢
      linarith
    exact le_of_sq_le_sq (by linarith) (by norm_num)
  have hqx : 0 < q * x := by positivity
  have hRq : R ≤ q * x := by nlinarith
  have hRe : |r - R| ≤ 2 * C.u * x + 3 * C.u * (q * x) := by
    refine le_trans v4 ?_
    have : (1 + 2 * C.u) * (21 / 10 * C.u * (q * x)) ≤ (12 / 10) * (21 / 10 * C.u * (q * x)) :=
      mul_le_mul_of_nonneg_right (by linarith) (by positivity)
    have h2 : 2 * C.u * R ≤ 2 * C.u * x := mul_le_mul_of_nonneg_left hRx (by linarith)
    have h3 : 0 < C.u * (q * x) := by positivity
    linarith
  exact ⟨v, r, R, q, v1, v2, v3, hR, hR0, hRx, hq, hq1, hqu, hRe⟩

/-- `acosh_impl` -/
theorem acosh_core (h : TrigFmt L C t) {x : ℝ} (hx : C.Has (.num x)) (h1 : 1 < x) (hb : x ≤ 10 ^ 20) :
    ∃ l z, acoshImpl L C t (.num x) = some l ∧ Val l z ∧ Rep C.p C.emin z ∧ |z| < (2 : ℝ) ^ C.emax ∧
      |z - Real.arcosh x| ≤ (64 * Real.arcosh x + 12 + 6 * (x / Real.sqrt (x ^ 2 - 1))) * C.u := by
  have hu := u_pos (F := C)
  have hu8 := h.big.u_small
  obtain ⟨v, r, R, q, v1, v2, v3, hR, hR0, hRx, hq, hq1, hqu, hRe⟩ := acosh_root h.big hx h1 hb
  rw [← hR, ← hq]
  have hA1 : 1 / 10 ^ 50 ≤ x + R := by
    have : (1 : ℝ) / 10 ^ 50 ≤ 1 := by norm_num
    linarith
  have hA2 : x + R ≤ 10 ^ 50 := by
    have : (2 : ℝ) * 10 ^ 20 ≤ 10 ^ 50 := by norm_num
    linarith
  obtain ⟨l, z, l1, l2, l3, l4, l5⟩ := log_sum (t := t) h hx v2 v3 hRe hA1 hA2 (k := 2 + 3 * q) (by linarith) (by
      norm_num at hqu; linarith) (by
    have : (2 * C.u + 3 * (q * C.u)) * x ≤ (2 * C.u + 3 * (q * C.u)) * (x + R) := mul_le_mul_of_nonneg_left (by linarith) (by positivity)
    linarith)
  refine ⟨l, z, ?_, l2, l3, l4, ?_⟩
  · unfold acoshImpl
    rw [v1, Option.bind_some, l1]
  · unfold Real.arcosh
    rw [← hR]
    have : 0 ≤ Real.log (x + R) := Real.log_nonneg (by linarith)
    rw [abs_of_nonneg this] at l5
    refine le_trans l5 (mul_le_mul_of_nonneg_right ?_ (le_of_lt hu))
    linarith

/-- `atanh_impl` -/
theorem atanh_core (h : TrigFmt L C t) {x : ℝ} (hx : C.Has (.num x)) (h1 : |x| < 1) :
    ∃ l z, atanhImpl L C t (.num x) = some l ∧ Val l z ∧ Rep C.p C.emin z ∧ |z| < (2 : ℝ) ^ C.emax ∧
      |z - Real.artanh x| ≤ (66 * |Real.artanh x| + 8) * C.u := by
  have w := h.big
  have hu := u_pos (F := C)
  have hu8 := w.u_small
  have hM := NearR.big_max30 w
  have hη := NearR.eta_rel w
  have hη0 : (0 : ℝ) < (2 : ℝ) ^ C.emin := by positivity
  have hone : Rep C.p C.emin 1 := C.rep_one
  obtain ⟨x1, x2⟩ := abs_lt.1 h1
  -- the distance from one
  have key : ∀ y, Rep C.p C.emin y → y < 1 → C.u ≤ 1 - y := by
    intro y hy hy1
    by_cases hc : 1 / 2 ≤ y
    · obtain ⟨k, hk⟩ := one_grid w hy hc
      have : (k : ℝ) < 0 := by
        by_contra hc
        have := mul_nonneg (not_lt.1 hc) (le_of_lt hu)
        linarith
      have h2 : (k : ℝ) ≤ -1 := by
        have : k < 0 := by exact_mod_cast this
        exact_mod_cast (by omega : k ≤ -1)
      nlinarith
    · linarith
  have hb := key x hx.2.1 x2
  have ha : C.u ≤ 1 + x := by
    have := key (-x) hx.2.1.neg (by linarith)
    linarith
  have e1 := rnd_add_rel hone hx.2.1
  have e2 := rnd_add_rel hone hx.2.1.neg
  rw [← sub_eq_add_neg] at e2
  rw [abs_of_pos (a := 1 + x) (by linarith)] at e1
  rw [abs_of_pos (a := 1 - x) (by linarith)] at e2
  have v1 := add_val (F := C) (Val.num one_ne_zero) (Val.num hx.1) (rnd_lt_emax (by
    rw [abs_of_pos (by linarith)]
    have : (2 : ℝ) ≤ 10 ^ 60 := by norm_num
    linarith))
  have v2 := sub_val (F := C) (Val.num one_ne_zero) (Val.num hx.1) (rnd_lt_emax (by
    rw [abs_of_pos (by linarith)]
    have : (2 : ℝ) ≤ 10 ^ 60 := by norm_num
    linarith))
  obtain ⟨a, hae⟩ : ∃ a, a = C.rnd (1 + x) := ⟨_, rfl⟩
  obtain ⟨b, hbe⟩ : ∃ b, b = C.rnd (1 - x) := ⟨_, rfl⟩
  rw [← hae] at e1 v1
  rw [← hbe] at e2 v2
  obtain ⟨A, hA⟩ : ∃ A, A = 1 + x := ⟨_, rfl⟩
  obtain ⟨B, hB⟩ : ∃ B, B = 1 - x := ⟨_, rfl⟩
  rw [← hA] at e1 ha
  rw [← hB] at e2 hb
  have hA0 : 0 < A := by linarith
  have hB0 : 0 < B := by linarith
  have hA2 : A ≤ 2 := by linarith
  have hB2 : B ≤ 2 := by linarith
  obtain ⟨a1, a2⟩ := abs_le.1 e1
  obtain ⟨b1, b2⟩ := abs_le.1 e2
  have huA : C.u * A ≤ 1 / 1000 * A := mul_le_mul_of_nonneg_right (by linarith) (le_of_lt hA0)
  have huB : C.u * B ≤ 1 / 1000 * B := mul_le_mul_of_nonneg_right (by linarith) (le_of_lt hB0)
  have hb0 : 0 < b := by linarith
  have ha0 : 0 < a := by linarith
  obtain ⟨Q, hQ⟩ : ∃ Q, Q = A / B := ⟨_, rfl⟩
  have hQ0 : 0 < Q := by rw [hQ]; positivity
  have hQB : Q * B = A := by rw [hQ]; field_simp
  have huge : 1 / 10 ^ 40 ≤ C.u := by
    refine le_trans ?_ w.u_ge
    norm_num
  have hQlo : 1 / (2 * 10 ^ 40) ≤ Q := by
    rw [hQ, le_div_iff₀ hB0]
    have : 1 / (2 * 10 ^ 40) * B ≤ 1 / (2 * 10 ^ 40) * 2 := mul_le_mul_of_nonneg_left hB2 (by norm_num)
    norm_num at this huge ⊢
    linarith
  have hQhi : Q ≤ 2 * 10 ^ 40 := by
    rw [hQ, div_le_iff₀ hB0]
    have : 2 * 10 ^ 40 * (1 / 10 ^ 40) ≤ 2 * 10 ^ 40 * B := mul_le_mul_of_nonneg_left (by linarith) (by norm_num)
    norm_num at this ⊢
    linarith
  have hq1 : |a / b - Q| ≤ 21 / 10 * C.u * Q := by
    have : a / b - Q = ((a - A) - Q * (b - B)) / b := by
      field_simp
      linear_combination -hQB
    rw [this, abs_div, abs_of_pos hb0, div_le_iff₀ hb0]
    have c1 : |a - A - Q * (b - B)| ≤ |a - A| + |Q * (b - B)| := abs_sub _ _
    rw [abs_mul, abs_of_pos hQ0] at c1
    have c2 : Q * |b - B| ≤ Q * (C.u * B) := mul_le_mul_of_nonneg_left e2 (le_of_lt hQ0)
    have c3 : 21 / 10 * C.u * Q * (999 / 1000 * B) ≤ 21 / 10 * C.u * Q * b := mul_le_mul_of_nonneg_left (by linarith) (by positivity)
    have c4 : Q * (C.u * B) = C.u * A := by rw [← hQB]; ring
    have c5 : 21 / 10 * C.u * Q * (999 / 1000 * B) = 21 / 10 * (999 / 1000) * (C.u * A) := by rw [← hQB]; ring
    have c6 : 0 < C.u * A := by positivity
    linarith
  have hq0 : 0 < a / b := by positivity
  have huQ : C.u * Q ≤ 1 / 1000 * Q := mul_le_mul_of_nonneg_right (by linarith) (le_of_lt hQ0)
  have hqle : a / b ≤ 2 * Q := by linarith [(abs_le.1 hq1).2]
  have v3 := div_val (F := C) v1 v2 (ne_of_gt hb0) (rnd_lt_emax (by
    rw [abs_of_pos hq0]
    have : (4 : ℝ) * 10 ^ 40 ≤ 10 ^ 60 := by norm_num
    linarith))
  have e3 := rnd_err (F := C) (a / b)
  rw [abs_of_pos hq0] at e3
  have hηQ : (2 : ℝ) ^ C.emin ≤ C.u * Q / 10 := by
    have : C.u * (1 / (2 * 10 ^ 40)) ≤ C.u * Q := mul_le_mul_of_nonneg_left hQlo (le_of_lt hu)
    have h2 : C.u * (1 / 10 ^ 60) ≤ C.u * (1 / (2 * 10 ^ 40)) / 10 := by
      rw [mul_div_assoc]
      exact mul_le_mul_of_nonneg_left (by norm_num) (le_of_lt hu)
    linarith
  have hquo : |C.rnd (a / b) - Q| ≤ 5 * C.u * Q := by
    have c1 := abs_sub_le (C.rnd (a / b)) (a / b) Q
    have c2 : C.u * (a / b) ≤ C.u * (2 * Q) := mul_le_mul_of_nonneg_left hqle (le_of_lt hu)
    have : 0 < C.u * Q := by positivity
    linarith
  obtain ⟨l, z, l1, l2, l3, l4, l5⟩ := log_near (t := t) h v3 (C.rnd_rep _) (A := Q) (k := 5) (by
    refine le_trans ?_ hQlo
    norm_num) (by
    refine le_trans hQhi ?_
    norm_num) (by norm_num) (by linarith) hquo
  have hart : Real.artanh x = 1 / 2 * Real.log Q := by
    rw [Real.artanh_eq_half_log ⟨by linarith, by linarith⟩, hQ, hA, hB]
  have hz2 : |z / 2| ≤ (2 : ℝ) ^ (C.emax - 1) := by
    rw [abs_div, abs_of_pos (by norm_num : (0 : ℝ) < 2), div_le_iff₀ (by norm_num)]
    have : (2 : ℝ) ^ C.emax = (2 : ℝ) ^ (C.emax - 1) * 2 := by
      rw [← zpow_add_one₀ (by norm_num)]; congr 1; ring
    linarith
  have hlt := rnd_lt_emax (F := C) hz2
  have v4 := div_val (F := C) l2 (Val.num two_ne_zero) two_ne_zero hlt
  refine ⟨_, _, by unfold atanhImpl; rw [l1]; rfl, v4, C.rnd_rep _, hlt, ?_⟩
  have e4 := rnd_err (F := C) (z / 2)
  have d1 := abs_sub_le (C.rnd (z / 2)) (z / 2) (Real.artanh x)
  have d2 : |z / 2 - Real.artanh x| ≤ (64 * |Real.artanh x| + 6) * C.u := by
    rw [hart, show z / 2 - 1 / 2 * Real.log Q = (z - Real.log Q) / 2 by ring, abs_div, abs_of_pos (by norm_num : (0 : ℝ) < 2),
      abs_mul, abs_of_pos (by norm_num : (0 : ℝ) < 1 / 2)]
    rw [div_le_iff₀ (by norm_num)]
    refine le_trans l5 (le_of_eq (by ring))
  have d3 : |z / 2| ≤ 2 * |Real.artanh x| + 1 := by
    have a := abs_sub_le (z / 2) (Real.artanh x) 0
    rw [sub_zero, sub_zero] at a
    have : (64 * |Real.artanh x| + 6) * C.u ≤ (64 * |Real.artanh x| + 6) * (1 / 1000) :=
      mul_le_mul_of_nonneg_left (by linarith) (by positivity)
    linarith [abs_nonneg (Real.artanh x)]
  have d4 := mul_le_mul_of_nonneg_left d3 (le_of_lt hu)
  have d5 : (2 : ℝ) ^ C.emin ≤ C.u := by
    have : C.u * (1 / 10 ^ 60) ≤ C.u * 1 := mul_le_mul_of_nonneg_left (by norm_num) (le_of_lt hu)
    linarith
  linarith

end MathArea

end Sprout
