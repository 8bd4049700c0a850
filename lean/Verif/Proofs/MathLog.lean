import Verif.Proofs.MathExp
import Verif.Proofs.MathSqrtFloat
import Verif.Props.C95
import Verif.Model.MathLog

/-!
# The series of the logarithm
-/

namespace Sprout

open Classical FV Fmt MathTables MathExp MathSqrt MathConst

/-- product with a sign -/
theorem Near.mul_sign {C : Fmt} {v : FV} {a A W : ℝ} (h : Near C v a A W) {s : ℝ} (hs : s = 1 ∨ s = -1)
    (hb : W ≤ (2 : ℝ) ^ (C.emax - 1)) : Near C (C.mul (.num s) v) (s * a) A W := by
  obtain ⟨r, h0, h1, h2, h3⟩ := h
  have hr := Near.abs_le h2 h3
  have hsr : Rep C.p C.emin (s * r) := by
    rcases hs with rfl | rfl
    · rwa [one_mul]
    · rw [neg_one_mul]; exact h1.neg
  have hs0 : s ≠ 0 := by rcases hs with rfl | rfl <;> norm_num
  have ha : |s| = 1 := by rcases hs with rfl | rfl <;> norm_num
  have hv := mul_val (F := C) (Val.num hs0) h0 (rnd_lt_emax (by rw [abs_mul, ha, one_mul]; linarith))
  rw [rnd_of_rep hsr] at hv
  refine ⟨_, hv, hsr, by rw [abs_mul, ha, one_mul]; exact h2, ?_⟩
  rw [← mul_sub, abs_mul, ha, one_mul]
  exact h3

namespace MathLog

variable {C : Fmt} {t : FloatTy}

theorem big_max (w : C.Big) : (1000000 : ℝ) ≤ (2 : ℝ) ^ (C.emax - 1) := by
  have := w.emax
  have h3 : (2 : ℝ) ^ (20 : ℤ) ≤ (2 : ℝ) ^ (C.emax - 1) := zpow_le_zpow_right₀ (by norm_num) (by omega)
  norm_num at h3 ⊢
  linarith

/-- bound of a term -/
noncomputable def termL (C : Fmt) (z : ℝ) (n : ℕ) : ℝ :=
  (1 + C.u) ^ (n + 2) * (z ^ n / n) + 2 * (n ^ 2 * (2 : ℝ) ^ C.emin)

theorem logTerm_near (w : C.Big) {v : FV} {z : ℝ} (hv : Val v z) (hr : Rep C.p C.emin z) (hz0 : 0 ≤ z) (hz1 : z ≤ 1)
    {n : ℕ} (h1 : 1 ≤ n) (h2 : n ≤ 170) : ∃ q, logTerm C v n = some q ∧
      Near C q ((if n % 2 ≠ 0 then 1 else -1) * z ^ n / n) (z ^ n / n) (termL C z n) := by
  have ha : |z| = z := abs_of_nonneg hz0
  have hm : max 1 |z| = 1 := max_eq_left (by rw [ha]; exact hz1)
  have hM := big_max w
  have hu := u_pos (F := C)
  obtain ⟨p, p1, p2⟩ := powNImpl_near w hv hr n h1 (by omega) (by rw [hm, one_pow]; linarith)
  have hW := powW_le w z (show n ≤ 512 by omega)
  rw [hm, one_pow] at hW
  have p3 := p2.mul_sign (s := if n % 2 ≠ 0 then 1 else -1) (by split_ifs <;> simp) (by linarith)
  have hn1 : (1 : ℝ) ≤ n := by exact_mod_cast h1
  have hn2 : (n : ℝ) ≤ 170 := by exact_mod_cast h2
  have hi := has_int C n (by omega) (by
    rw [abs_of_nonneg (by omega)]
    have : 2 ^ 8 ≤ 2 ^ C.p := Nat.pow_le_pow_right (by norm_num) (by have := w.p53; omega)
    have : (2 : ℤ) ^ 8 ≤ 2 ^ C.p := by exact_mod_cast this
    omega)
  have hi' : Near C (C.ofInt n) (n : ℝ) n n := by
    have e : C.ofInt n = .num (n : ℝ) := by
      unfold ofInt
      have := ofReal_val (F := C) (s := false) (r := ((n : ℤ) : ℝ)) (by rw [rnd_of_rep hi.2.1]; exact hi.2.2)
      rw [rnd_of_rep hi.2.1] at this
      rw [this.eq_num hi.1]
      simp
    rw [e]
    have := Near.num (C := C) (r := n) (by linarith) (by simpa using hi.2.1)
    rwa [abs_of_pos (by linarith)] at this
  have hT := termW_ge w z h1 n h1
  have hW0 : 0 ≤ powW C z n := by unfold powW; positivity
  have h3 : (1 + C.u) * (powW C z n / (2 * n - n)) ≤ (1 + C.u) ^ 3 * (powW C z n / n) := by
    rw [show (2 * (n : ℝ) - n) = n by ring]
    refine mul_le_mul_of_nonneg_right ?_ (by positivity)
    calc 1 + C.u = (1 + C.u) ^ 1 := by ring
      _ ≤ _ := pow_le_pow_right₀ (by linarith) (by norm_num)
  rw [hm, one_pow, mul_one, ha] at hT
  have hle : (1 + C.u) ^ (n + 2) * (z ^ n / n) + 2 * ((n : ℝ) ^ 2 * (2 : ℝ) ^ C.emin) ≤ 100 := by
    have hg := w.one_add_le (show n + 2 ≤ 1024 by omega)
    have hη := w.eta_small
    have hη0 : (0 : ℝ) < (2 : ℝ) ^ C.emin := by positivity
    have i1 : z ^ n ≤ 1 := pow_le_one₀ hz0 hz1
    have i2 : z ^ n / n ≤ 1 := by rw [div_le_one (by linarith)]; linarith
    have i3 : (1 + C.u) ^ (n + 2) * (z ^ n / n) ≤ (1 + 1 / 1000000) * 1 := mul_le_mul hg i2 (by positivity) (by norm_num)
    have i4 : (n : ℝ) ^ 2 ≤ 170 ^ 2 := pow_le_pow_left₀ (by linarith) hn2 2
    have i5 : (n : ℝ) ^ 2 * (2 : ℝ) ^ C.emin ≤ 170 ^ 2 * (1 / 1000000000000) := mul_le_mul i4 hη (le_of_lt hη0) (by norm_num)
    linarith
  have q := p3.div hi' (by linarith) (by linarith) (by linarith)
  refine ⟨C.div (C.mul (.num (if n % 2 ≠ 0 then 1 else -1)) p) (C.ofInt n), ?_, ?_⟩
  · unfold logTerm powNU
    rw [if_neg (show ¬ n = 0 by omega), p1]
    rfl
  · rw [ha] at q
    exact q.mono (by unfold termL; linarith)

/-- a bound of the geometric sum -/
theorem geom_le {z : ℝ} (h0 : 0 ≤ z) (h1 : z ≤ 21 / 50) (N : ℕ) : ∑ n ∈ Finset.Ico (1 : ℕ) (N + 1), z ^ n ≤ 50 / 29 * z := by
  have : ∑ n ∈ Finset.Ico (1 : ℕ) (N + 1), z ^ n ≤ 50 / 29 * (z - z ^ (N + 1)) := by
    induction N with
    | zero => simp
    | succ N ih =>
      rw [Finset.sum_Ico_succ_top (by omega)]
      have h2 : 0 ≤ z ^ (N + 1) := by positivity
      rw [pow_succ z (N + 1)]
      nlinarith
  have h2 : 0 ≤ z ^ (N + 1) := by positivity
  linarith

/-- the sum of the bounds -/
theorem termL_sum (w : C.Big) {z : ℝ} (hz0 : 2 * C.u ≤ z) (hz1 : z ≤ 21 / 50) :
    (1 + C.u) ^ 8 * ∑ n ∈ Finset.Ico (1 : ℕ) 171, termL C z n - ∑ n ∈ Finset.Ico (1 : ℕ) 171, z ^ n / n ≤ 191 / 10 * (C.u * z) := by
  have hu := u_pos (F := C)
  have hz : 0 < z := by linarith
  have hη0 : (0 : ℝ) < (2 : ℝ) ^ C.emin := by positivity
  have hg8 := w.one_add_le (show 8 ≤ 1024 by norm_num)
  -- the bounds of the underflow
  have hη : (2 : ℝ) ^ C.emin * 1000000000 ≤ C.u * z := by
    have h1 : (2 : ℝ) ^ (-226 : ℤ) ≤ C.u * z := by
      have h2 : (2 : ℝ) ^ (-226 : ℤ) = (2 : ℝ) ^ (-113 : ℤ) * (2 : ℝ) ^ (-113 : ℤ) := by rw [← zpow_add₀ (by norm_num)]; norm_num
      rw [h2]
      exact mul_le_mul w.u_ge (by have := w.u_ge; linarith) (by positivity) (le_of_lt hu)
    refine le_trans ?_ h1
    have h3 := mul_le_mul_of_nonneg_right w.eta_le (show (0 : ℝ) ≤ 1000000000 by norm_num)
    refine le_trans h3 ?_
    have h4 : (1000000000 : ℝ) ≤ (2 : ℝ) ^ (30 : ℤ) := by norm_num
    refine le_trans (mul_le_mul_of_nonneg_left h4 (by positivity)) ?_
    rw [← zpow_add₀ (by norm_num)]
    exact zpow_le_zpow_right₀ (by norm_num) (by norm_num)
  have hs : ∑ n ∈ Finset.Ico (1 : ℕ) 171, 2 * ((n : ℝ) ^ 2 * (2 : ℝ) ^ C.emin) ≤ 10000000 * (2 : ℝ) ^ C.emin := by
    have := Finset.sum_le_card_nsmul (Finset.Ico (1 : ℕ) 171) (fun n => 2 * ((n : ℝ) ^ 2 * (2 : ℝ) ^ C.emin))
      (2 * (28900 * (2 : ℝ) ^ C.emin)) (fun n hn => by
        rw [Finset.mem_Ico] at hn
        have hn' : (n : ℝ) ≤ 170 := by exact_mod_cast (by omega : n ≤ 170)
        have h5 : (n : ℝ) ^ 2 ≤ 28900 := by nlinarith [show (0 : ℝ) ≤ n by positivity]
        have := mul_le_mul_of_nonneg_right h5 (le_of_lt hη0)
        linarith)
    simp at this
    linarith
  have hs0 : 0 ≤ ∑ n ∈ Finset.Ico (1 : ℕ) 171, 2 * ((n : ℝ) ^ 2 * (2 : ℝ) ^ C.emin) := Finset.sum_nonneg fun n _ => by positivity
  have hI : ∑ n ∈ Finset.Ico (1 : ℕ) 171, termL C z n = ∑ n ∈ Finset.Ico (1 : ℕ) 171, (1 + C.u) ^ (n + 2) * (z ^ n / n) +
      ∑ n ∈ Finset.Ico (1 : ℕ) 171, 2 * ((n : ℝ) ^ 2 * (2 : ℝ) ^ C.emin) := by
    rw [← Finset.sum_add_distrib]
    rfl
  have hmain : (1 + C.u) ^ 8 * ∑ n ∈ Finset.Ico (1 : ℕ) 171, (1 + C.u) ^ (n + 2) * (z ^ n / n) ≤
      ∑ n ∈ Finset.Ico (1 : ℕ) 171, z ^ n / n + (1 + 1 / 10000) * (11 * C.u) * ∑ n ∈ Finset.Ico (1 : ℕ) 171, z ^ n := by
    rw [Finset.mul_sum, Finset.mul_sum, ← Finset.sum_add_distrib]
    refine Finset.sum_le_sum fun n hn => ?_
    rw [Finset.mem_Ico] at hn
    have hn1 : (1 : ℝ) ≤ n := by exact_mod_cast hn.1
    have h2 := one_add_sub_le w (show n + 10 ≤ 1024 by omega)
    have h3 : 0 ≤ z ^ n / n := by positivity
    rw [← mul_assoc, ← pow_add, show 8 + (n + 2) = n + 10 by ring]
    have h4 := mul_le_mul_of_nonneg_right h2 h3
    push_cast at h4
    have h5 : ((n : ℝ) + 10) * (z ^ n / n) ≤ 11 * z ^ n := by
      rw [← mul_div_assoc, div_le_iff₀ (by linarith)]
      have : 0 ≤ z ^ n := by positivity
      nlinarith
    have h6 := mul_le_mul_of_nonneg_left h5 (show 0 ≤ (1 + 1 / 10000) * C.u by positivity)
    linarith
  have hgeo := geom_le (le_of_lt hz) hz1 170
  have h7 := mul_le_mul_of_nonneg_left hgeo (show 0 ≤ (1 + 1 / 10000) * (11 * C.u) by positivity)
  have h8 : (1 + C.u) ^ 8 * ∑ n ∈ Finset.Ico (1 : ℕ) 171, 2 * ((n : ℝ) ^ 2 * (2 : ℝ) ^ C.emin) ≤
      (1 + 1 / 1000000) * (10000000 * (2 : ℝ) ^ C.emin) := mul_le_mul hg8 hs hs0 (by norm_num)
  rw [hI, mul_add]
  norm_num at hmain h7 h8 ⊢
  linarith

/-- the truncated series -/
theorem log_poly {z : ℝ} (h0 : 0 ≤ z) (h1 : z ≤ 21 / 50) :
    |∑ n ∈ Finset.Ico (1 : ℕ) 171, (if n % 2 ≠ 0 then 1 else -1) * z ^ n / n - Real.log (1 + z)| ≤ 1 / 2 ^ 200 * z := by
  have h := Real.abs_log_sub_add_sum_range_le (x := -z) (by rw [abs_neg, abs_of_nonneg h0]; linarith) 170
  rw [abs_neg, abs_of_nonneg h0, sub_neg_eq_add] at h
  have e : ∑ i ∈ Finset.range 170, (-z) ^ (i + 1) / ((i : ℝ) + 1) =
      -∑ n ∈ Finset.Ico (1 : ℕ) 171, (if n % 2 ≠ 0 then 1 else -1) * z ^ n / n := by
    rw [Finset.sum_Ico_eq_sum_range, ← Finset.sum_neg_distrib]
    refine Finset.sum_congr rfl fun i _ => ?_
    rw [neg_pow, add_comm 1 i]
    have h2 : ((-1 : ℝ)) ^ (i + 1) = -(if (i + 1) % 2 ≠ 0 then 1 else -1) := by
      rcases Nat.even_or_odd (i + 1) with hp | hp
      · rw [hp.neg_one_pow, if_neg (by rw [Nat.even_iff] at hp; omega)]; norm_num
      · rw [hp.neg_one_pow, if_pos (by rw [Nat.odd_iff] at hp; omega)]
    rw [h2]
    push_cast
    ring
  rw [e] at h
  rw [← abs_neg, show -(∑ n ∈ Finset.Ico (1 : ℕ) 171, (if n % 2 ≠ 0 then 1 else -1) * z ^ n / n - Real.log (1 + z)) =
    -∑ n ∈ Finset.Ico (1 : ℕ) 171, (if n % 2 ≠ 0 then 1 else -1) * z ^ n / n + Real.log (1 + z) by ring]
  refine le_trans h ?_
  rw [div_le_iff₀ (by linarith), pow_succ]
  have h3 : z ^ 170 ≤ (21 / 50) ^ 170 := pow_le_pow_left₀ h0 h1 170
  have h4 : ((21 : ℝ) / 50) ^ 170 ≤ 1 / 2 ^ 201 := by
    rw [div_pow, div_le_div_iff₀ (by positivity) (by positivity)]
    have : 21 ^ 170 * 2 ^ 201 ≤ 1 * 50 ^ 170 := by decide +kernel
    exact_mod_cast this
  have h5 : (1 : ℝ) / 2 ^ 200 = 2 * (1 / 2 ^ 201) := by norm_num
  rw [h5]
  have h6 : z ^ 170 * z ≤ 1 / 2 ^ 201 * z := mul_le_mul_of_nonneg_right (le_trans h3 h4) h0
  have h7 : (0 : ℝ) < 1 / 2 ^ 201 := by positivity
  generalize (1 : ℝ) / 2 ^ 201 = ε at *
  nlinarith [mul_nonneg (le_of_lt h7) h0]

/-- lower bound of the logarithm -/
theorem log_ge {z : ℝ} (h0 : 0 ≤ z) (h1 : z ≤ 21 / 50) : 39 / 50 * z ≤ Real.log (1 + z) := by
  refine le_trans ?_ (Real.le_log_one_add_of_nonneg h0)
  rw [le_div_iff₀ (by linarith)]
  nlinarith

/-- the values above one -/
theorem sub_one_rep (w : C.Big) {x : ℝ} (hr : Rep C.p C.emin x) (h1 : 1 < x) (h2 : x ≤ 2) :
    Rep C.p C.emin (x - 1) ∧ 2 * C.u ≤ x - 1 := by
  have hp := w.p53
  have he := C.emin_le
  obtain ⟨m, hm⟩ := hr.grid' (e := 1 - C.p) (by
    rw [show (C.p : ℤ) - 1 + (1 - C.p) = 0 by ring, zpow_zero]; linarith)
  have h2u : (2 : ℝ) ^ (1 - (C.p : ℤ)) = 2 * C.u := by
    unfold u
    rw [sub_eq_add_neg, zpow_add₀ (by norm_num)]
    norm_num
  have hone : (1 : ℝ) = (2 ^ (C.p - 1) : ℤ) * (2 : ℝ) ^ (1 - (C.p : ℤ)) := by
    push_cast
    rw [← zpow_natCast, ← zpow_add₀ (by norm_num), show ((C.p - 1 : ℕ) : ℤ) + (1 - (C.p : ℤ)) = 0 by omega, zpow_zero]
  have hx : x - 1 = (m - 2 ^ (C.p - 1) : ℤ) * (2 : ℝ) ^ (1 - (C.p : ℤ)) := by
    have e : x - 1 = m * (2 : ℝ) ^ (1 - (C.p : ℤ)) - (2 ^ (C.p - 1) : ℤ) * (2 : ℝ) ^ (1 - (C.p : ℤ)) := by rw [← hone, ← hm]
    rw [e]
    push_cast
    ring
  have hu := u_pos (F := C)
  have hpos : 0 < m - 2 ^ (C.p - 1) := by
    by_contra hc
    have : ((m - 2 ^ (C.p - 1) : ℤ) : ℝ) ≤ 0 := by exact_mod_cast not_lt.1 hc
    rw [h2u] at hx
    nlinarith
  constructor
  · refine ⟨m - 2 ^ (C.p - 1), 1 - C.p, by omega, ?_, hx⟩
    rw [abs_of_pos hpos]
    have h3 : ((m - 2 ^ (C.p - 1) : ℤ) : ℝ) * (2 : ℝ) ^ (1 - (C.p : ℤ)) ≤ (2 ^ (C.p - 1) : ℤ) * (2 : ℝ) ^ (1 - (C.p : ℤ)) := by
      rw [← hx, ← hone]; linarith
    have h4 := le_of_mul_le_mul_right h3 (by positivity)
    have h5 : m - 2 ^ (C.p - 1) ≤ 2 ^ (C.p - 1) := by exact_mod_cast h4
    have h6 : (2 : ℤ) ^ C.p = 2 * 2 ^ (C.p - 1) := by rw [← pow_succ']; congr 1; omega
    have h7 : (0 : ℤ) < 2 ^ (C.p - 1) := by positivity
    omega
  · rw [hx, h2u]
    have : (1 : ℝ) ≤ ((m - 2 ^ (C.p - 1) : ℤ) : ℝ) := by exact_mod_cast hpos
    nlinarith

/-- the series of arguments near one -/
theorem logBase (w : C.Big) (hf : HasFormat C t) {x : ℝ} (hr : Rep C.p C.emin x) (h1 : 1 < x) (h2 : x ≤ 142 / 100) :
    ∃ v r, series C (logTerm C (C.sub (.num x) (.num 1))) 1 (t.limit + 1) = some v ∧ Val v r ∧ Rep C.p C.emin r ∧
      |r - Real.log x| ≤ 25 * C.u * Real.log x := by
  have hu := u_pos (F := C)
  have hu8 := w.u_small
  have hM := big_max w
  obtain ⟨z1, z2⟩ := sub_one_rep w hr h1 (by linarith)
  have hv := sub_val (F := C) (Val.num (show x ≠ 0 by linarith)) (Val.num one_ne_zero) (rnd_lt_emax (by
    rw [abs_of_pos (by linarith)]; linarith))
  rw [rnd_of_rep z1] at hv
  obtain ⟨z, hz⟩ : ∃ z, z = x - 1 := ⟨_, rfl⟩
  rw [← hz] at hv z1 z2
  have hz1 : z ≤ 21 / 50 := by linarith
  have hz0 : 0 < z := by linarith
  have hsum := termL_sum w z2 hz1
  have hA : ∑ n ∈ Finset.Ico (1 : ℕ) 171, z ^ n / n ≤ 50 / 29 * z := by
    refine le_trans (Finset.sum_le_sum fun n hn => ?_) (geom_le (le_of_lt hz0) hz1 170)
    rw [Finset.mem_Ico] at hn
    have : (1 : ℝ) ≤ n := by exact_mod_cast hn.1
    exact div_le_self (by positivity) this
  have huz : C.u * z ≤ 1 * 1 := mul_le_mul (by linarith) (by linarith) (by linarith) (by norm_num)
  obtain ⟨s, s1, r, s2, s3, s4, s5⟩ := series_near (C := C) (term := logTerm C (C.sub (.num x) (.num 1)))
    (a := fun n => (if n % 2 ≠ 0 then 1 else -1) * z ^ n / n) (A := fun n => z ^ n / n) (W := fun n => termL C z n) 8 1 171
    (by norm_num) (by norm_num) (fun k hk1 hk2 => logTerm_near w hv z1 (le_of_lt hz0) (by linarith) hk1 (by omega)) (by
      show (1 + C.u) ^ 8 * ∑ n ∈ Finset.Ico (1 : ℕ) 171, termL C z n ≤ _
      linarith)
  rw [limit_big w hf]
  refine ⟨s, r, s1, s2, s3, ?_⟩
  have hp := log_poly (le_of_lt hz0) hz1
  have hl := log_ge (le_of_lt hz0) hz1
  rw [show 1 + z = x by linarith] at hp hl
  have h200 : 1 / 2 ^ 200 * z ≤ C.u / 1000 * z := by
    refine mul_le_mul_of_nonneg_right ?_ (le_of_lt hz0)
    have := w.u_ge
    have h3 : (1 / 2 ^ 200 : ℝ) ≤ (2 : ℝ) ^ (-113 : ℤ) / 1000 := by norm_num
    exact le_trans h3 (div_le_div_of_nonneg_right this (by norm_num))
  have s5' := le_trans s5 hsum
  have e : r - Real.log x = (r - ∑ n ∈ Finset.Ico (1 : ℕ) 171, (if n % 2 ≠ 0 then 1 else -1) * z ^ n / n) +
    (∑ n ∈ Finset.Ico (1 : ℕ) 171, (if n % 2 ≠ 0 then 1 else -1) * z ^ n / n - Real.log x) := by ring
  rw [e]
  refine le_trans (abs_add_le _ _) ?_
  have h5 := mul_le_mul_of_nonneg_left hl (show 0 ≤ 25 * C.u by linarith)
  have h6 : 0 < C.u * z := by positivity
  linarith

/-- the constant of the recursion -/
theorem rootTwo (w : C.Big) {L : Fmt} (hs : C.Sub L) : ∃ r, const L C .rootTwo = .num r ∧ 14142 / 10000 ≤ r ∧ r ≤ 14143 / 10000 := by
  obtain ⟨r, h1, -, h2⟩ := C95_constants L C hs (by have := w.p53; omega) .rootTwo
  refine ⟨r, h1, ?_⟩
  have h3 : (2 : ℝ) ^ (-(L.p : ℤ)) ≤ C.u := zpow_le_zpow_right₀ (by norm_num) (by have := hs.1; omega)
  have hu8 := w.u_small
  have h4 : (141421 / 100000 : ℝ) ≤ √2 := by rw [Real.le_sqrt (by norm_num) (by norm_num)]; norm_num
  have h5 : √(2 : ℝ) ≤ 141422 / 100000 := by rw [Real.sqrt_le_left (by norm_num)]; norm_num
  have h6 : (1 / 10 ^ 109 : ℝ) ≤ 1 / 1000000 := by norm_num
  simp only [Const.real] at h2
  have h7 : ((2 : ℝ) ^ (-(C.p : ℤ)) + 2 * (2 : ℝ) ^ (-(L.p : ℤ))) * √2 ≤ (1 / 1000000) * 2 := by
    refine mul_le_mul ?_ (by linarith) (by positivity) (by norm_num)
    change C.u + _ ≤ _
    linarith
  have := abs_le.1 h2
  constructor <;> linarith [this.1, this.2]

/-- the square root of the type of computation -/
theorem sqrt_step (w : C.Big) {x : ℝ} (hx : C.Has (.num x)) (h1 : 1 < x) :
    ∃ y, sqrt C C (.num x) = some (.num y) ∧ C.Has (.num y) ∧ |y - √x| ≤ 2 * C.u * √x := by
  have hu := u_pos (F := C)
  have hu8 := w.u_small
  obtain ⟨v, r, r1, r2, r3, r4⟩ := sqrt_inv w.wide (by linarith) hx
  have hs1 : 1 ≤ √x := by rw [Real.one_le_sqrt]; linarith
  have hss : √x * √x = x := Real.mul_self_sqrt (by linarith)
  have hx' := hx.2.2
  rw [abs_of_pos (by linarith)] at hx'
  have r4' := abs_le.1 r4
  have h2 : 2 * C.u * √x ≤ 1 / 4 * √x := mul_le_mul_of_nonneg_right (by linarith) (by linarith)
  have hr0 : 0 < r := by linarith
  have hb : |r| < (2 : ℝ) ^ C.emax := by
    rw [abs_of_pos hr0]
    rcases le_or_gt 1.25 √x with h3 | h3
    · nlinarith
    · have := big_max w
      have : (2 : ℝ) ^ (C.emax - 1) ≤ (2 : ℝ) ^ C.emax := zpow_le_zpow_right₀ (by norm_num) (by omega)
      linarith
  refine ⟨r, ?_, ⟨ne_of_gt hr0, r3, hb⟩, r4⟩
  rw [sqrt_num ⟨le_refl _, le_refl _, le_refl _⟩ (by linarith) hx, r1, r2.eq_num (ne_of_gt hr0)]
  show some _ = _
  rw [cvt_num r3 hb (ne_of_gt hr0)]

/-- the logarithm of a quotient near one -/
theorem log_close {a b δ : ℝ} (hb : 0 < b) (hδ : 0 ≤ δ) (hδ2 : δ ≤ 1 / 1000) (h : |a - b| ≤ δ * b) :
    |Real.log a - Real.log b| ≤ 101 / 100 * δ := by
  have h' := abs_le.1 h
  have h1 : δ * b ≤ 1 / 1000 * b := mul_le_mul_of_nonneg_right hδ2 (le_of_lt hb)
  have ha : 0 < a := by linarith
  have h2 : Real.log a - Real.log b ≤ a / b - 1 := by
    rw [← Real.log_div (ne_of_gt ha) (ne_of_gt hb)]
    exact Real.log_le_sub_one_of_pos (by positivity)
  have h3 : Real.log b - Real.log a ≤ b / a - 1 := by
    rw [← Real.log_div (ne_of_gt hb) (ne_of_gt ha)]
    exact Real.log_le_sub_one_of_pos (by positivity)
  have h4 : a / b ≤ 1 + δ := by
    rw [div_le_iff₀ hb]; linarith
  have h5 : b / a ≤ 1 + 101 / 100 * δ := by
    rw [div_le_iff₀ ha]
    have h6 : (1 + 101 / 100 * δ) * ((1 - δ) * b) ≤ (1 + 101 / 100 * δ) * a :=
      mul_le_mul_of_nonneg_left (by linarith) (by linarith)
    have h7 : 1 ≤ (1 + 101 / 100 * δ) * (1 - δ) := by nlinarith
    have h8 := mul_le_mul_of_nonneg_right h7 (le_of_lt hb)
    linarith
  rw [abs_le]
  constructor <;> linarith

theorem logImpl1_val (w : C.Big) (hf : HasFormat C t) {L : Fmt} (hs : C.Sub L) {rt : ℝ} (hrt : const L C .rootTwo = .num rt)
    (hrt1 : 14142 / 10000 ≤ rt) (hrt2 : rt ≤ 14143 / 10000) (k : ℕ) : ∀ x, C.Has (.num x) → 1 < x →
      Real.log x ≤ 34 / 100 * (18 / 10) ^ k → ∃ v r, logImpl1 L C t (.num x) = some v ∧ Val v r ∧ Rep C.p C.emin r ∧
        (x ≤ rt → |r - Real.log x| ≤ 25 * C.u * Real.log x) ∧ (rt < x → |r - Real.log x| ≤ C.u * (52 * Real.log x - 5)) := by
  have hu := u_pos (F := C)
  have hu8 := w.u_small
  have hbig : ∀ x, rt < x → 346 / 1000 ≤ Real.log x := by
    intro x hx
    have h1 : Real.log (14142 / 10000 * (14142 / 10000)) ≤ Real.log (x * x) := by
      refine Real.log_le_log (by norm_num) ?_
      nlinarith
    rw [Real.log_mul (show x ≠ 0 by linarith) (show x ≠ 0 by linarith)] at h1
    have h2 : Real.log 2 - 1 / 10000 ≤ Real.log (14142 / 10000 * (14142 / 10000)) := by
      have h3 := Real.log_le_sub_one_of_pos (show (0 : ℝ) < 2 / (14142 / 10000 * (14142 / 10000)) by norm_num)
      rw [Real.log_div (by norm_num) (by norm_num)] at h3
      have h4 : (2 : ℝ) / (14142 / 10000 * (14142 / 10000)) - 1 ≤ 1 / 10000 := by norm_num
      linarith
    have := Real.log_two_gt_d9
    norm_num at this
    linarith
  induction k with
  | zero =>
    intro x hx h1 h2
    rw [pow_zero] at h2
    have hle : x ≤ rt := by
      by_contra hc
      have := hbig x (not_le.1 hc)
      linarith
    rw [logImpl1.eq_def, hrt, if_pos (by simp only [lt_num_num, not_lt]; exact hle)]
    obtain ⟨v, r, v1, v2, v3, v4⟩ := logBase w hf hx.2.1 h1 (by linarith)
    exact ⟨v, r, v1, v2, v3, fun _ => v4, fun h => absurd h (not_lt.2 hle)⟩
  | succ k ih =>
    intro x hx h1 h2
    rcases le_or_gt x rt with hle | hgt
    · rw [logImpl1.eq_def, hrt, if_pos (by simp only [lt_num_num, not_lt]; exact hle)]
      obtain ⟨v, r, v1, v2, v3, v4⟩ := logBase w hf hx.2.1 h1 (by linarith)
      exact ⟨v, r, v1, v2, v3, fun _ => v4, fun h => absurd h (not_lt.2 hle)⟩
    · rw [logImpl1.eq_def, hrt, if_neg (by simp only [lt_num_num, not_not]; exact hgt)]
      have hL := hbig x hgt
      obtain ⟨y, y1, y2, y3⟩ := sqrt_step w hx h1
      have hss : √x * √x = x := Real.mul_self_sqrt (by linarith)
      have hsx : 118 / 100 ≤ √x := by
        rw [Real.le_sqrt (by norm_num) (by linarith)]
        linarith
      have y3' := abs_le.1 y3
      have hu2 : 2 * C.u * √x ≤ 1 / 1000 * √x := mul_le_mul_of_nonneg_right (by linarith) (by linarith)
      have hlog := log_close (by linarith) (by linarith) (by linarith) y3
      rw [Real.log_sqrt (by linarith)] at hlog
      have hlog' := abs_le.1 hlog
      have hk1 : (1 : ℝ) ≤ (18 / 10) ^ k := one_le_pow₀ (by norm_num)
      obtain ⟨v, r, v1, v2, v3, v4, v5⟩ := ih y y2 (by linarith) (by
        rw [pow_succ] at h2
        linarith)
      have hy0 : 0 < Real.log y := Real.log_pos (by linarith)
      have herr : |r - Real.log y| ≤ 52 * C.u * Real.log y := by
        rcases le_or_gt y rt with h | h
        · have := mul_pos hu hy0
          have := v4 h
          linarith
        · have := v5 h
          linarith
      have herr' := abs_le.1 herr
      have hsmall : 52 * C.u * Real.log y ≤ 1 / 1000 * Real.log y := mul_le_mul_of_nonneg_right (by linarith) (le_of_lt hy0)
      have hly := Real.log_le_sub_one_of_pos (show 0 < y by linarith)
      have hb : |2 * r| < (2 : ℝ) ^ C.emax := by
        rw [abs_of_pos (by linarith)]
        have hx' := hx.2.2
        rw [abs_of_pos (by linarith)] at hx'
        have h3 : 2 * r ≤ x / 2 + 10 := by nlinarith [sq_nonneg (√x - 3)]
        have h4 : (2 : ℝ) ^ C.emax = 2 * (2 : ℝ) ^ (C.emax - 1) := by
          rw [zpow_sub_one₀ (by norm_num)]; ring
        have := big_max w
        linarith
      have hm := mul_val (F := C) (Val.num two_ne_zero) v2 (by rw [rnd_of_rep v3.double]; exact hb)
      rw [rnd_of_rep v3.double] at hm
      refine ⟨_, 2 * r, ?_, hm, v3.double, fun h => absurd hgt (not_lt.2 h), fun _ => ?_⟩
      · rw [y1]
        show (logImpl1 L C t (.num y) >>= fun l => some (C.mul (.num 2) l)) = _
        rw [v1]
        rfl
      · have e : 2 * r - Real.log x = 2 * (r - Real.log y) + 2 * (Real.log y - Real.log x / 2) := by ring
        rw [e]
        refine le_trans (abs_add_le _ _) ?_
        rw [abs_mul, abs_mul, abs_of_pos (by norm_num : (0 : ℝ) < 2)]
        have hly2 : C.u * Real.log y ≤ C.u * (Real.log x / 2 + 101 / 100 * (2 * C.u)) :=
          mul_le_mul_of_nonneg_left (by linarith) (le_of_lt hu)
        have huu : C.u * C.u ≤ C.u * (1 / 1000000) := mul_le_mul_of_nonneg_left (by linarith) (le_of_lt hu)
        rcases le_or_gt y rt with h | h
        · have h3 := v4 h
          have h4 := mul_le_mul_of_nonneg_left hL (le_of_lt hu)
          linarith
        · have h3 := v5 h
          linarith

end MathLog

end Sprout
