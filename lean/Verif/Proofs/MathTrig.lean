import Verif.Proofs.MathLog
import Verif.Props.C91
import Verif.Model.MathTrig
import Mathlib.Analysis.Complex.Trigonometric
import Mathlib.Analysis.SpecialFunctions.Trigonometric.Bounds

/-! # The series of the cosine -/

namespace Sprout

open Classical FV Fmt MathTables MathExp MathConst MathMod

namespace MathTrig

variable {C : Fmt} {t : FloatTy}

/-- bound of a term -/
noncomputable def termC (C : Fmt) (s : ℝ) (n : ℕ) : ℝ :=
  (1 + C.u) ^ (n + 2) * (|s| ^ n / (2 * n).factorial) + 2 * (n ^ 2 * ((2 : ℝ) ^ C.emin * max 1 |s| ^ n))

theorem termC_le (w : C.Big) {x : ℝ} (hx : |x| ≤ 2048) {n : ℕ} (h2 : n ≤ 85) : termC C x n ≤ 2 * B := by
  refine le_trans ?_ (termW_le w hx h2)
  unfold termC termW
  have hu := u_pos (F := C)
  have h5 : (n.factorial : ℝ) ≤ (2 * n).factorial := by exact_mod_cast Nat.factorial_le (by omega)
  have h6 : (0 : ℝ) < n.factorial := by exact_mod_cast Nat.factorial_pos n
  have h7 : |x| ^ n / (2 * n).factorial ≤ |x| ^ n / n.factorial := div_le_div_of_nonneg_left (by positivity) h6 h5
  have := mul_le_mul_of_nonneg_left h7 (show 0 ≤ (1 + C.u) ^ (n + 2) by positivity)
  linarith

/-- the sign of a term -/
def sgnC (n : ℕ) : ℝ := if n % 2 ≠ 0 then -1 else 1

theorem sgnC_eq (n : ℕ) : sgnC n = (-1) ^ n := by
  unfold sgnC
  rcases Nat.mod_two_eq_zero_or_one n with h | h
  · rw [if_neg (by omega), Even.neg_one_pow (Nat.even_iff.2 h)]
  · rw [if_pos (by omega), Odd.neg_one_pow (Nat.odd_iff.2 h)]

theorem cosTerm_near (w : C.Big) (hf : HasFormat C t) {v : FV} {x : ℝ} (hv : Val v x) (hr : Rep C.p C.emin x)
    (hx : |x| ≤ 2048) {n : ℕ} (h1 : 1 ≤ n) (h2 : n ≤ 85) : ∃ q, cosTerm C t v n = some q ∧
      Near C q (sgnC n * x ^ n / (2 * n).factorial) (|x| ^ n / (2 * n).factorial) (termC C x n) := by
  have hX1 : (1 : ℝ) ≤ max 1 |x| := le_max_left _ _
  have h935 := B_emax w
  have hB := B_pos
  have hXn := le_B hx h2
  obtain ⟨p, p1, p2⟩ := powNImpl_near w hv hr n h1 (by omega) (by linarith)
  have hPW := powW_le w x (show n ≤ 512 by omega)
  have p3 := p2.mul_sign (s := sgnC n) (by unfold sgnC; split_ifs <;> simp) (by linarith)
  have hW := termW_ge w x h1 (2 * n).factorial (Nat.factorial_pos _)
  have hT := termC_le w hx h2
  obtain ⟨q, q1, q2⟩ := div_fact_near w hf (by omega : 2 * n ≤ 170) p3 (by unfold termC at hT; linarith)
  refine ⟨q, ?_, q2.mono hW⟩
  unfold cosTerm powNU
  rw [if_neg (by omega), p1]
  exact q1

/-- the Taylor polynomial of degree 170 of the cosine of the square root -/
noncomputable def cosPoly (s : ℝ) : ℝ := ∑ n ∈ Finset.range 86, (-1) ^ n * s ^ n / (2 * n).factorial

theorem cosPoly_eq (s : ℝ) : 1 + ∑ n ∈ Finset.Ico (1 : ℕ) 86, sgnC n * s ^ n / (2 * n).factorial = cosPoly s := by
  unfold cosPoly
  rw [Finset.range_eq_Ico, Finset.sum_eq_sum_Ico_succ_bot (by norm_num : 0 < 86)]
  simp [sgnC_eq]

theorem sum_q : ∑ n ∈ Finset.range 86, ((n : ℚ) + 10) * (40 ^ n / (2 * n).factorial) ≤ 3800 := by decide +kernel

theorem sum_bound {s : ℝ} (h0 : 0 ≤ s) (h : s ≤ 40) :
    ∑ n ∈ Finset.range 86, ((n : ℝ) + 10) * (s ^ n / (2 * n).factorial) ≤ 3800 := by
  have h1 : ∑ n ∈ Finset.range 86, ((n : ℝ) + 10) * (s ^ n / (2 * n).factorial) ≤
      ∑ n ∈ Finset.range 86, ((n : ℝ) + 10) * (40 ^ n / (2 * n).factorial) := by
    refine Finset.sum_le_sum fun n _ => ?_
    have : s ^ n ≤ 40 ^ n := pow_le_pow_left₀ h0 h n
    gcongr
  refine le_trans h1 ?_
  have := (Rat.cast_le (K := ℝ)).2 sum_q
  push_cast at this
  exact this

theorem sum_bound' {s : ℝ} (h0 : 0 ≤ s) (h : s ≤ 40) : ∑ n ∈ Finset.range 86, s ^ n / (2 * n).factorial ≤ 380 := by
  have h1 := sum_bound h0 h
  have h2 : ∑ n ∈ Finset.range 86, 10 * (s ^ n / (2 * n).factorial) ≤
      ∑ n ∈ Finset.range 86, ((n : ℝ) + 10) * (s ^ n / (2 * n).factorial) := by
    refine Finset.sum_le_sum fun n _ => ?_
    have : 0 ≤ s ^ n / (2 * n).factorial := by positivity
    have hn : (0 : ℝ) ≤ n := by positivity
    nlinarith
  rw [← Finset.mul_sum] at h2
  linarith

/-- the sum of the bounds -/
theorem termC_sum (w : C.Big) {s : ℝ} (h0 : 0 ≤ s) (h : s ≤ 40) :
    (1 + C.u) * (1 + (1 + C.u) ^ 7 * ∑ n ∈ Finset.Ico (1 : ℕ) 86, termC C s n) ≤
      ∑ n ∈ Finset.range 86, s ^ n / (2 * n).factorial + 3802 * C.u := by
  have hu := u_pos (F := C)
  have ha : |s| = s := abs_of_nonneg h0
  have hx : |s| ≤ 2048 := by rw [ha]; linarith
  have hη0 : (0 : ℝ) < (2 : ℝ) ^ C.emin := by positivity
  have hsmall : ∀ n ∈ Finset.Ico (1 : ℕ) 86, 2 * ((n : ℝ) ^ 2 * ((2 : ℝ) ^ C.emin * max 1 |s| ^ n)) ≤ C.u / 800 := by
    intro n hn
    rw [Finset.mem_Ico] at hn
    have hn' : (n : ℝ) ≤ 85 := by exact_mod_cast (by omega : n ≤ 85)
    have h5 : (n : ℝ) ^ 2 ≤ 8192 := by nlinarith [show (0 : ℝ) ≤ n by positivity]
    have h6 : (n : ℝ) ^ 2 * ((2 : ℝ) ^ C.emin * max 1 |s| ^ n) ≤ 8192 * ((2 : ℝ) ^ C.emin * B) :=
      mul_le_mul h5 (mul_le_mul_of_nonneg_left (le_B hx (by omega)) (le_of_lt hη0)) (by positivity) (by norm_num)
    have h7 := B_eta w
    linarith
  have hs : ∑ n ∈ Finset.Ico (1 : ℕ) 86, 2 * ((n : ℝ) ^ 2 * ((2 : ℝ) ^ C.emin * max 1 |s| ^ n)) ≤ C.u / 8 := by
    have := Finset.sum_le_card_nsmul _ _ _ hsmall
    simp at this
    linarith
  have hI : ∑ n ∈ Finset.Ico (1 : ℕ) 86, termC C s n =
      ∑ n ∈ Finset.Ico (1 : ℕ) 86, (1 + C.u) ^ (n + 2) * (s ^ n / (2 * n).factorial) +
      ∑ n ∈ Finset.Ico (1 : ℕ) 86, 2 * ((n : ℝ) ^ 2 * ((2 : ℝ) ^ C.emin * max 1 |s| ^ n)) := by
    rw [← Finset.sum_add_distrib]
    unfold termC
    rw [ha]
  have hg8 := w.one_add_le (show 8 ≤ 1024 by norm_num)
  have hmain : (1 + C.u) ^ 8 * ∑ n ∈ Finset.Ico (1 : ℕ) 86, (1 + C.u) ^ (n + 2) * (s ^ n / (2 * n).factorial) + (1 + C.u) ^ 10 ≤
      ∑ n ∈ Finset.range 86, (1 + C.u) ^ (n + 10) * (s ^ n / (2 * n).factorial) := by
    rw [Finset.range_eq_Ico, Finset.sum_eq_sum_Ico_succ_bot (by norm_num : 0 < 86), Finset.mul_sum]
    simp only [zero_add, mul_zero, pow_zero, Nat.factorial_zero, Nat.cast_one, div_one, mul_one]
    rw [add_comm]
    apply le_of_eq
    congr 1
    refine Finset.sum_congr rfl fun n _ => ?_
    rw [show n + 10 = 8 + (n + 2) by ring, pow_add _ 8]
    ring
  have hsum : ∑ n ∈ Finset.range 86, (1 + C.u) ^ (n + 10) * (s ^ n / (2 * n).factorial) ≤
      ∑ n ∈ Finset.range 86, s ^ n / (2 * n).factorial + (1 + 1 / 10000) * C.u * 3800 := by
    have h1 : ∀ n ∈ Finset.range 86, (1 + C.u) ^ (n + 10) * (s ^ n / (2 * n).factorial) ≤
        s ^ n / (2 * n).factorial + (1 + 1 / 10000) * C.u * (((n : ℝ) + 10) * (s ^ n / (2 * n).factorial)) := by
      intro n hn
      rw [Finset.mem_range] at hn
      have h2 := one_add_sub_le w (show n + 10 ≤ 1024 by omega)
      have h3 : 0 ≤ s ^ n / (2 * n).factorial := by positivity
      have := mul_le_mul_of_nonneg_right h2 h3
      push_cast at this
      nlinarith
    refine le_trans (Finset.sum_le_sum h1) ?_
    rw [Finset.sum_add_distrib, ← Finset.mul_sum]
    have h3 := mul_le_mul_of_nonneg_left (sum_bound h0 h) (show 0 ≤ (1 + 1 / 10000) * C.u by positivity)
    linarith
  have e1 : (1 + C.u) * (1 + (1 + C.u) ^ 7 * ∑ n ∈ Finset.Ico (1 : ℕ) 86, termC C s n) =
      (1 + C.u) + (1 + C.u) ^ 8 * ∑ n ∈ Finset.Ico (1 : ℕ) 86, (1 + C.u) ^ (n + 2) * (s ^ n / (2 * n).factorial) +
      (1 + C.u) ^ 8 * ∑ n ∈ Finset.Ico (1 : ℕ) 86, 2 * ((n : ℝ) ^ 2 * ((2 : ℝ) ^ C.emin * max 1 |s| ^ n)) := by
    rw [hI]; ring
  have hs0 : 0 ≤ ∑ n ∈ Finset.Ico (1 : ℕ) 86, 2 * ((n : ℝ) ^ 2 * ((2 : ℝ) ^ C.emin * max 1 |s| ^ n)) :=
    Finset.sum_nonneg fun n _ => by positivity
  have h3 : (1 + C.u) ^ 8 * ∑ n ∈ Finset.Ico (1 : ℕ) 86, 2 * ((n : ℝ) ^ 2 * ((2 : ℝ) ^ C.emin * max 1 |s| ^ n)) ≤
      (1 + 1 / 1000000) * (C.u / 8) := mul_le_mul hg8 hs hs0 (by norm_num)
  have h4 : 1 + C.u ≤ (1 + C.u) ^ 10 := by
    calc 1 + C.u = (1 + C.u) ^ 1 := by ring
      _ ≤ (1 + C.u) ^ 10 := pow_le_pow_right₀ (by linarith) (by norm_num)
  rw [e1]
  linarith

/-- `1 + cos_impl_1(x2, 1, 86)` -/
theorem cosSum_near (w : C.Big) (hf : HasFormat C t) {v : FV} {s : ℝ} (hv : Val v s) (hr : Rep C.p C.emin s)
    (h0 : 0 ≤ s) (h : s ≤ 40) : ∃ q, series C (cosTerm C t v) 1 (t.limit / 2 + 1) = some q ∧ ∃ r, Val (C.add (.num 1) q) r ∧
      Rep C.p C.emin r ∧ |r - cosPoly s| ≤ 3802 * C.u ∧ |r| ≤ 400 := by
  have hu := u_pos (F := C)
  have hu8 := w.u_small
  have ha : |s| = s := abs_of_nonneg h0
  have hx : |s| ≤ 2048 := by rw [ha]; linarith
  have hsum := termC_sum w h0 h
  have hb := sum_bound' h0 h
  have hM := MathLog.big_max w
  have hS0 : 0 ≤ (1 + C.u) ^ 7 * ∑ n ∈ Finset.Ico (1 : ℕ) 86, termC C s n := by
    refine mul_nonneg (by positivity) (Finset.sum_nonneg fun n _ => ?_)
    unfold termC
    positivity
  obtain ⟨q, s1, s2⟩ := series_near (C := C) (term := cosTerm C t v) (a := fun n => sgnC n * s ^ n / (2 * n).factorial)
    (A := fun n => |s| ^ n / (2 * n).factorial) (W := fun n => termC C s n) 7 1 86 (by norm_num) (by norm_num)
    (fun k hk1 hk2 => cosTerm_near w hf hv hr hx hk1 (by omega)) (by nlinarith)
  have h5 := Near.one.add s2 (by linarith)
  rw [cosPoly_eq] at h5
  have h6 := h5.mono hsum
  obtain ⟨r, r1, r2, r3, r4⟩ := h6
  have e : 1 + ∑ n ∈ Finset.Ico (1 : ℕ) 86, |s| ^ n / (2 * n).factorial = ∑ n ∈ Finset.range 86, s ^ n / (2 * n).factorial := by
    rw [Finset.range_eq_Ico, Finset.sum_eq_sum_Ico_succ_bot (by norm_num : 0 < 86), ha]
    simp
  rw [e] at r3 r4
  refine ⟨q, ?_, r, r1, r2, by linarith, ?_⟩
  · rw [limit_big w hf]
    exact s1
  · have := Near.abs_le r3 r4
    linarith

/-- even powers of the imaginary argument -/
theorem re_sum (y : ℝ) (k : ℕ) : (∑ m ∈ Finset.range (2 * k), ((y : ℂ) * Complex.I) ^ m / m.factorial).re =
    ∑ n ∈ Finset.range k, (-1) ^ n * (y ^ 2) ^ n / (2 * n).factorial := by
  induction k with
  | zero => simp
  | succ k ih =>
    rw [show 2 * (k + 1) = 2 * k + 1 + 1 by ring, Finset.sum_range_succ, Finset.sum_range_succ, Finset.sum_range_succ,
      Complex.add_re, Complex.add_re, ih]
    have e1 : ((y : ℂ) * Complex.I) ^ (2 * k) = (((-1) ^ k * (y ^ 2) ^ k : ℝ) : ℂ) := by
      rw [pow_mul, mul_pow, Complex.I_sq]
      push_cast
      rw [mul_neg_one, neg_eq_neg_one_mul, mul_pow]
    have e2 : ((y : ℂ) * Complex.I) ^ (2 * k) / (2 * k).factorial =
        (((-1) ^ k * (y ^ 2) ^ k / (2 * k).factorial : ℝ) : ℂ) := by
      rw [e1]; push_cast; rfl
    have e3 : ((y : ℂ) * Complex.I) ^ (2 * k + 1) / (2 * k + 1).factorial =
        (((-1) ^ k * (y ^ 2) ^ k * y / (2 * k + 1).factorial : ℝ) : ℂ) * Complex.I := by
      rw [pow_succ, e1]; push_cast; ring
    rw [e2, e3, Complex.ofReal_re, Complex.re_ofReal_mul, Complex.I_re, mul_zero, add_zero]

theorem fact_q : (13 : ℕ) ^ 172 * 2 * 2 ^ 113 ≤ (172 : ℕ).factorial * 2 ^ 172 := by decide +kernel

theorem cos_poly {y : ℝ} (h : |y| ≤ 13 / 2) : |Real.cos y - cosPoly (y ^ 2)| ≤ (2 : ℝ) ^ (-113 : ℤ) := by
  have hn : ‖(y : ℂ) * Complex.I‖ = |y| := by simp
  have h1 := Complex.exp_bound' (x := (y : ℂ) * Complex.I) (n := 172) (by
    rw [hn]
    push_cast
    rw [div_le_iff₀ (by norm_num)]
    linarith)
  rw [hn] at h1
  have h2 := Complex.abs_re_le_norm (Complex.exp ((y : ℂ) * Complex.I) -
    ∑ m ∈ Finset.range 172, ((y : ℂ) * Complex.I) ^ m / m.factorial)
  have h3 : (∑ m ∈ Finset.range 172, ((y : ℂ) * Complex.I) ^ m / m.factorial).re = cosPoly (y ^ 2) := re_sum y 86
  rw [Complex.sub_re, Complex.exp_ofReal_mul_I_re, h3] at h2
  refine le_trans h2 (le_trans h1 ?_)
  have h4 : |y| ^ 172 ≤ (13 / 2) ^ 172 := pow_le_pow_left₀ (abs_nonneg _) h 172
  have h5 : ((13 : ℕ) ^ 172 * 2 * 2 ^ 113 : ℝ) ≤ (172 : ℕ).factorial * 2 ^ 172 := by exact_mod_cast fact_q
  have hf : (0 : ℝ) < (172 : ℕ).factorial := by exact_mod_cast Nat.factorial_pos 172
  generalize ((172 : ℕ).factorial : ℝ) = f at *
  have e : (2 : ℝ) ^ (-113 : ℤ) = 1 / 2 ^ 113 := by norm_num
  rw [e, div_mul_eq_mul_div, div_le_div_iff₀ hf (by positivity)]
  rw [div_pow] at h4
  have h6 : (13 : ℝ) ^ 172 / 2 ^ 172 * 2 * 2 ^ 113 ≤ f := by
    rw [div_mul_eq_mul_div, div_mul_eq_mul_div, div_le_iff₀ (by positivity)]
    exact_mod_cast h5
  refine le_trans ?_ (le_trans h6 (by linarith))
  gcongr

theorem cos_sq_diff (a b : ℝ) : |Real.cos a - Real.cos b| ≤ |a ^ 2 - b ^ 2| / 2 := by
  rw [Real.cos_sub_cos, abs_mul, abs_mul]
  have h1 : |Real.sin ((a + b) / 2)| ≤ |(a + b) / 2| := Real.abs_sin_le_abs
  have h2 : |Real.sin ((a - b) / 2)| ≤ |(a - b) / 2| := Real.abs_sin_le_abs
  have h3 : |a ^ 2 - b ^ 2| / 2 = |(-2 : ℝ)| * |(a + b) / 2| * |(a - b) / 2| := by
    rw [← abs_mul, ← abs_mul, show (-2 : ℝ) * ((a + b) / 2) * ((a - b) / 2) = -((a ^ 2 - b ^ 2) / 2) by ring, abs_neg, abs_div]
    norm_num
  rw [h3]
  gcongr

theorem cos_diff (a b : ℝ) : |Real.cos a - Real.cos b| ≤ |a - b| := by
  rw [Real.cos_sub_cos, abs_mul, abs_mul]
  have h1 : |Real.sin ((a + b) / 2)| ≤ 1 := Real.abs_sin_le_one _
  have h2 : |Real.sin ((a - b) / 2)| ≤ |(a - b) / 2| := Real.abs_sin_le_abs
  have h3 : |(a - b) / 2| = |a - b| / 2 := by rw [abs_div]; norm_num
  rw [h3] at h2
  have e : |(-2 : ℝ)| = 2 := by norm_num
  rw [e]
  nlinarith [abs_nonneg (Real.sin ((a + b) / 2)), abs_nonneg (Real.sin ((a - b) / 2))]

/-- the sum for an argument reduced to the period -/
theorem cosRed (w : C.Big) (hf : HasFormat C t) {v : FV} {y : ℝ} (hv : Val v y) (hr : |y| ≤ 63 / 10) :
    ∃ q, series C (cosTerm C t (C.mul v v)) 1 (t.limit / 2 + 1) = some q ∧ ∃ r, Val (C.add (.num 1) q) r ∧
      Rep C.p C.emin r ∧ |r - Real.cos y| ≤ 3824 * C.u ∧ |r| ≤ 400 := by
  have hu := u_pos (F := C)
  have hu8 := w.u_small
  have hM := MathLog.big_max w
  have hη := w.eta_small
  have hy2 : y ^ 2 ≤ 3969 / 100 := by
    have := abs_le.1 hr
    nlinarith
  have hy0 : 0 ≤ y ^ 2 := sq_nonneg y
  have e : y * y = y ^ 2 := by ring
  have herr := rnd_err (F := C) (y * y)
  rw [e, abs_of_nonneg hy0] at herr
  have hη3 : (2 : ℝ) ^ C.emin ≤ C.u := by
    refine le_trans w.eta_le (le_trans ?_ w.u_ge)
    exact zpow_le_zpow_right₀ (by norm_num) (by norm_num)
  have herr2 : |C.rnd (y ^ 2) - y ^ 2| ≤ 41 * C.u := by nlinarith
  have hs0 : 0 ≤ C.rnd (y ^ 2) := rnd_nonneg hy0
  have hs1 : C.rnd (y ^ 2) ≤ 40 := by
    have := (abs_le.1 herr2).2
    linarith
  have hm : Val (C.mul v v) (C.rnd (y ^ 2)) := by
    have := mul_val (F := C) hv hv (rnd_lt_emax (by rw [e, abs_of_nonneg hy0]; linarith))
    rwa [e] at this
  obtain ⟨q, q1, r, r1, r2, r3, r4⟩ := cosSum_near w hf hm (C.rnd_rep _) hs0 hs1
  refine ⟨q, q1, r, r1, r2, ?_, r4⟩
  obtain ⟨s, hs⟩ : ∃ s, s = C.rnd (y ^ 2) := ⟨_, rfl⟩
  rw [← hs] at herr2 hs0 hs1 r3
  have hsq : Real.sqrt s ^ 2 = s := Real.sq_sqrt hs0
  have h1 := cos_poly (y := Real.sqrt s) (by
    rw [abs_of_nonneg (Real.sqrt_nonneg _)]
    exact Real.sqrt_le_iff.2 ⟨by norm_num, by linarith⟩)
  rw [hsq] at h1
  have h2 := cos_sq_diff (Real.sqrt s) y
  rw [hsq] at h2
  have h3 := w.u_ge
  have h4 := abs_add_le (r - cosPoly s) (cosPoly s - Real.cos (Real.sqrt s))
  have h5 := abs_add_le (r - cosPoly s + (cosPoly s - Real.cos (Real.sqrt s))) (Real.cos (Real.sqrt s) - Real.cos y)
  rw [show r - cosPoly s + (cosPoly s - Real.cos (Real.sqrt s)) + (Real.cos (Real.sqrt s) - Real.cos y) = r - Real.cos y by ring] at h5
  rw [abs_sub_comm (cosPoly s)] at h4
  linarith

end MathTrig

end Sprout
