import Verif.Model.MathAtan
import Verif.Proofs.MathLog
import Verif.Proofs.NearRel
import Verif.Props.C97
import Verif.Proofs.MathHyp
import Mathlib.Analysis.SpecialFunctions.Complex.Arctan
import Mathlib.Analysis.SpecificLimits.Normed

/-! # The series of the arc tangent -/

namespace Sprout

open Classical FV Fmt MathTables MathExp MathConst MathLog MathTrig

namespace MathAtan

variable {L F C : Fmt} {t : FloatTy}

/-- bound of a term -/
noncomputable def termA (C : Fmt) (z : ℝ) (n : ℕ) : ℝ :=
  (1 + C.u) ^ (2 * n + 3) * (|z| ^ (2 * n + 1) / (2 * n + 1 : ℕ)) + 2 * ((2 * n + 1 : ℕ) ^ 2 * (2 : ℝ) ^ C.emin)

/-- the exact term -/
noncomputable def coefA (z : ℝ) (n : ℕ) : ℝ := (-1) ^ n * z ^ (2 * n + 1) / (2 * n + 1 : ℕ)

theorem sign_eq (n : ℕ) : (if n % 2 ≠ 0 then (-1 : ℝ) else 1) = (-1) ^ n := by
  rcases Nat.even_or_odd n with h | h
  · rw [h.neg_one_pow, if_neg (by rw [Nat.even_iff] at h; omega)]
  · rw [h.neg_one_pow, if_pos (by rw [Nat.odd_iff] at h; omega)]

theorem ofInt_near (w : C.Big) {k : ℕ} (h1 : 1 ≤ k) (h2 : k ≤ 512) : Near C (C.ofInt k) (k : ℝ) k k ∧ Val (C.ofInt k) k := by
  have hn1 : (1 : ℝ) ≤ k := by exact_mod_cast h1
  have hi := has_int C k (by omega) (by
    rw [abs_of_nonneg (by omega)]
    have : 2 ^ 10 ≤ 2 ^ C.p := Nat.pow_le_pow_right (by norm_num) (by have := w.p53; omega)
    have : (2 : ℤ) ^ 10 ≤ 2 ^ C.p := by exact_mod_cast this
    omega)
  have e : C.ofInt k = .num (k : ℝ) := by
    unfold ofInt
    have := ofReal_val (F := C) (s := false) (r := ((k : ℤ) : ℝ)) (by rw [rnd_of_rep hi.2.1]; exact hi.2.2)
    rw [rnd_of_rep hi.2.1] at this
    rw [this.eq_num hi.1]
    simp
  rw [e]
  refine ⟨?_, Val.num (by linarith)⟩
  have := Near.num (C := C) (r := k) (by linarith) (by simpa using hi.2.1)
  rwa [abs_of_pos (by linarith)] at this

theorem atanTerm_near (w : C.Big) {v : FV} {z : ℝ} (hv : Val v z) (hr : Rep C.p C.emin z) (hz1 : |z| ≤ 1)
    {n : ℕ} (h2 : n ≤ 170) : ∃ q, atanTerm C v n = some q ∧
      Near C q (coefA z n) (|z| ^ (2 * n + 1) / (2 * n + 1 : ℕ)) (termA C z n) := by
  have hz0 := abs_nonneg z
  have hm : max 1 |z| = 1 := max_eq_left hz1
  have hM := big_max w
  have hu := u_pos (F := C)
  obtain ⟨k, hk⟩ : ∃ k, k = 2 * n + 1 := ⟨_, rfl⟩
  unfold termA coefA atanTerm
  rw [show 2 * n + 3 = k + 2 by omega, ← hk]
  have hk1 : 1 ≤ k := by omega
  have hk2 : k ≤ 341 := by omega
  obtain ⟨p, p1, p2⟩ := powNImpl_near w hv hr k hk1 (by omega) (by rw [hm, one_pow]; linarith)
  have hW := powW_le w z (show k ≤ 512 by omega)
  rw [hm, one_pow] at hW
  have p3 := p2.mul_sign (s := if n % 2 ≠ 0 then -1 else 1) (by split_ifs <;> simp) (by linarith)
  have hn1 : (1 : ℝ) ≤ k := by exact_mod_cast hk1
  have hn2 : (k : ℝ) ≤ 341 := by exact_mod_cast hk2
  obtain ⟨hi', -⟩ := ofInt_near w hk1 (by omega)
  have hT := termW_ge w z hk1 k hk1
  have hW0 : 0 ≤ powW C z k := by unfold powW; positivity
  have h3 : (1 + C.u) * (powW C z k / (2 * k - k)) ≤ (1 + C.u) ^ 3 * (powW C z k / k) := by
    rw [show (2 * (k : ℝ) - k) = k by ring]
    refine mul_le_mul_of_nonneg_right ?_ (by positivity)
    calc 1 + C.u = (1 + C.u) ^ 1 := by ring
      _ ≤ _ := pow_le_pow_right₀ (by linarith) (by norm_num)
  rw [hm, one_pow, mul_one] at hT
  have hle : (1 + C.u) ^ (k + 2) * (|z| ^ k / k) + 2 * ((k : ℝ) ^ 2 * (2 : ℝ) ^ C.emin) ≤ 100 := by
    have hg := w.one_add_le (show k + 2 ≤ 1024 by omega)
    have hη := w.eta_small
    have hη0 : (0 : ℝ) < (2 : ℝ) ^ C.emin := by positivity
    have i1 : |z| ^ k ≤ 1 := pow_le_one₀ hz0 hz1
    have i2 : |z| ^ k / k ≤ 1 := by rw [div_le_one (by linarith)]; linarith
    have i3 : (1 + C.u) ^ (k + 2) * (|z| ^ k / k) ≤ (1 + 1 / 1000000) * 1 := mul_le_mul hg i2 (by positivity) (by norm_num)
    have i4 : (k : ℝ) ^ 2 ≤ 341 ^ 2 := pow_le_pow_left₀ (by linarith) hn2 2
    have i5 : (k : ℝ) ^ 2 * (2 : ℝ) ^ C.emin ≤ 341 ^ 2 * (1 / 1000000000000) := mul_le_mul i4 hη (le_of_lt hη0) (by norm_num)
    linarith
  have q := p3.div hi' (by linarith) (by linarith) (by linarith)
  refine ⟨C.div (C.mul (.num (if n % 2 ≠ 0 then -1 else 1)) p) (C.ofInt k), ?_, ?_⟩
  · unfold powNU
    rw [if_neg (show ¬ k = 0 by omega), p1]
    rfl
  · rw [sign_eq] at q ⊢
    exact q.mono (by linarith)

/-- a bound of the geometric sum of odd powers -/
theorem geomO_le {z : ℝ} (h0 : 0 ≤ z) (h1 : z ≤ 21 / 50) {m N : ℕ} (h : m ≤ N) :
    ∑ n ∈ Finset.Ico m N, z ^ (2 * n + 1) ≤ 17 / 14 * z ^ (2 * m + 1) := by
  have : ∑ n ∈ Finset.Ico m N, z ^ (2 * n + 1) ≤ 17 / 14 * (z ^ (2 * m + 1) - z ^ (2 * N + 1)) := by
    induction N, h using Nat.le_induction with
    | base => simp
    | succ N hN ih =>
      rw [Finset.sum_Ico_succ_top hN]
      have h2 : 0 ≤ z ^ (2 * N + 1) := by positivity
      have h3 : z ^ (2 * (N + 1) + 1) = z ^ 2 * z ^ (2 * N + 1) := by rw [← pow_add]; congr 1; ring
      have h4 : z ^ 2 ≤ (21 / 50) ^ 2 := pow_le_pow_left₀ h0 h1 2
      have h5 := mul_le_mul_of_nonneg_right h4 h2
      rw [h3]
      linarith
  have h2 : 0 ≤ z ^ (2 * N + 1) := by positivity
  linarith

/-- the sum of the bounds -/
theorem termA_sum (w : C.Big) {z κ : ℝ} (hz1 : |z| ≤ 21 / 50) {m : ℕ} (hm : m ≤ 1) (hκ0 : 0 ≤ κ)
    (hκ : ∀ n : ℕ, m ≤ n → 2 * (n : ℝ) + 11 ≤ κ * (2 * n + 1)) :
    (1 + C.u) ^ 8 * ∑ n ∈ Finset.Ico m 171, termA C z n - ∑ n ∈ Finset.Ico m 171, |z| ^ (2 * n + 1) / (2 * n + 1 : ℕ) ≤
      (1 + 1 / 10000) * (κ * C.u) * (17 / 14 * |z| ^ (2 * m + 1)) + 50000000 * (2 : ℝ) ^ C.emin := by
  have hu := u_pos (F := C)
  have hz := abs_nonneg z
  have hη0 : (0 : ℝ) < (2 : ℝ) ^ C.emin := by positivity
  have hg8 := w.one_add_le (show 8 ≤ 1024 by norm_num)
  have hs : ∑ n ∈ Finset.Ico m 171, 2 * (((2 * n + 1 : ℕ) : ℝ) ^ 2 * (2 : ℝ) ^ C.emin) ≤ 40000000 * (2 : ℝ) ^ C.emin := by
    have := Finset.sum_le_card_nsmul (Finset.Ico m 171) (fun n => 2 * (((2 * n + 1 : ℕ) : ℝ) ^ 2 * (2 : ℝ) ^ C.emin))
      (2 * (116281 * (2 : ℝ) ^ C.emin)) (fun n hn => by
        rw [Finset.mem_Ico] at hn
        have hn' : ((2 * n + 1 : ℕ) : ℝ) ≤ 341 := by exact_mod_cast (by omega : 2 * n + 1 ≤ 341)
        have h5 : ((2 * n + 1 : ℕ) : ℝ) ^ 2 ≤ 116281 := by nlinarith [show (0 : ℝ) ≤ (2 * n + 1 : ℕ) by positivity]
        have := mul_le_mul_of_nonneg_right h5 (le_of_lt hη0)
        linarith)
    rw [Nat.card_Ico, nsmul_eq_mul] at this
    have h6 : ((171 - m : ℕ) : ℝ) ≤ 171 := by exact_mod_cast (by omega : 171 - m ≤ 171)
    have h7 := mul_le_mul_of_nonneg_right h6 (show 0 ≤ 2 * (116281 * (2 : ℝ) ^ C.emin) by positivity)
    linarith
  have hs0 : 0 ≤ ∑ n ∈ Finset.Ico m 171, 2 * (((2 * n + 1 : ℕ) : ℝ) ^ 2 * (2 : ℝ) ^ C.emin) := Finset.sum_nonneg fun n _ => by positivity
  have hI : ∑ n ∈ Finset.Ico m 171, termA C z n =
      ∑ n ∈ Finset.Ico m 171, (1 + C.u) ^ (2 * n + 3) * (|z| ^ (2 * n + 1) / (2 * n + 1 : ℕ)) +
      ∑ n ∈ Finset.Ico m 171, 2 * (((2 * n + 1 : ℕ) : ℝ) ^ 2 * (2 : ℝ) ^ C.emin) := by
    rw [← Finset.sum_add_distrib]
    rfl
  have hmain : (1 + C.u) ^ 8 * ∑ n ∈ Finset.Ico m 171, (1 + C.u) ^ (2 * n + 3) * (|z| ^ (2 * n + 1) / (2 * n + 1 : ℕ)) ≤
      ∑ n ∈ Finset.Ico m 171, |z| ^ (2 * n + 1) / (2 * n + 1 : ℕ) +
        (1 + 1 / 10000) * (κ * C.u) * ∑ n ∈ Finset.Ico m 171, |z| ^ (2 * n + 1) := by
    rw [Finset.mul_sum, Finset.mul_sum, ← Finset.sum_add_distrib]
    refine Finset.sum_le_sum fun n hn => ?_
    rw [Finset.mem_Ico] at hn
    have hk := hκ n hn.1
    have hn1 : (0 : ℝ) ≤ n := by positivity
    have h2 := one_add_sub_le w (show 2 * n + 11 ≤ 1024 by omega)
    have h3 : 0 ≤ |z| ^ (2 * n + 1) / (2 * n + 1 : ℕ) := by positivity
    rw [← mul_assoc, ← pow_add, show 8 + (2 * n + 3) = 2 * n + 11 by ring]
    have h4 := mul_le_mul_of_nonneg_right h2 h3
    push_cast at h4 ⊢
    have h5 : (2 * (n : ℝ) + 11) * (|z| ^ (2 * n + 1) / (2 * n + 1)) ≤ κ * |z| ^ (2 * n + 1) := by
      rw [← mul_div_assoc, div_le_iff₀ (by linarith)]
      have : 0 ≤ |z| ^ (2 * n + 1) := by positivity
      nlinarith
    have h6 := mul_le_mul_of_nonneg_left h5 (show 0 ≤ (1 + 1 / 10000) * C.u by positivity)
    linarith
  have hgeo := geomO_le hz hz1 (show m ≤ 171 by omega)
  have h7 := mul_le_mul_of_nonneg_left hgeo (show 0 ≤ (1 + 1 / 10000) * (κ * C.u) by positivity)
  have h8 : (1 + C.u) ^ 8 * ∑ n ∈ Finset.Ico m 171, 2 * (((2 * n + 1 : ℕ) : ℝ) ^ 2 * (2 : ℝ) ^ C.emin) ≤
      (1 + 1 / 1000000) * (40000000 * (2 : ℝ) ^ C.emin) := mul_le_mul hg8 hs hs0 (by norm_num)
  rw [hI, mul_add]
  linarith

/-- the truncated series -/
theorem arctan_poly {z : ℝ} (h1 : |z| ≤ 21 / 50) (N : ℕ) :
    |∑ n ∈ Finset.range N, coefA z n - Real.arctan z| ≤ |z| * (z ^ 2) ^ N / (1 - z ^ 2) := by
  have hz2 : z ^ 2 ≤ (21 / 50) ^ 2 := by rw [← sq_abs]; exact pow_le_pow_left₀ (abs_nonneg z) h1 2
  refine norm_sub_le_of_geometric_bound_of_hasSum (by linarith) (fun n => ?_)
    (Real.hasSum_arctan (x := z) (by rw [Real.norm_eq_abs]; linarith)) N
  rw [Real.norm_eq_abs, abs_div, abs_mul, abs_pow, abs_pow, abs_neg, abs_one, one_pow, one_mul, Nat.abs_cast]
  refine le_trans (div_le_self (by positivity) (by exact_mod_cast (show 1 ≤ 2 * n + 1 by omega))) (le_of_eq ?_)
  rw [pow_succ', pow_mul, sq_abs]

theorem arctan_poly171 (w : C.Big) {z : ℝ} (h1 : |z| ≤ 21 / 50) :
    |∑ n ∈ Finset.range 171, coefA z n - Real.arctan z| ≤ C.u / 1000 * |z| := by
  refine le_trans (arctan_poly h1 171) ?_
  have hz2 : z ^ 2 ≤ 1764 / 10000 := by
    rw [← sq_abs]
    refine le_trans (pow_le_pow_left₀ (abs_nonneg z) h1 2) (by norm_num)
  have hz := abs_nonneg z
  rw [div_le_iff₀ (by linarith)]
  have h3 : (z ^ 2) ^ 171 ≤ (1764 / 10000) ^ 171 := pow_le_pow_left₀ (by positivity) hz2 171
  have h4 : ((1764 : ℝ) / 10000) ^ 171 ≤ 1 / 2 ^ 200 := by
    rw [div_pow, div_le_div_iff₀ (by positivity) (by positivity)]
    have : 1764 ^ 171 * 2 ^ 200 ≤ 1 * 10000 ^ 171 := by decide +kernel
    exact_mod_cast this
  have h5 : (1 / 2 ^ 200 : ℝ) ≤ C.u / 2000 := by
    have h3 : (1 / 2 ^ 200 : ℝ) ≤ (2 : ℝ) ^ (-113 : ℤ) / 2000 := by norm_num
    exact le_trans h3 (div_le_div_of_nonneg_right w.u_ge (by norm_num))
  have h6 := mul_le_mul_of_nonneg_left (le_trans h3 (le_trans h4 h5)) hz
  refine le_trans h6 ?_
  have hu := u_pos (F := C)
  have h7 : 0 ≤ C.u * |z| := by positivity
  have h8 : (1 : ℝ) / 2 ≤ 1 - z ^ 2 := by linarith
  have h9 := mul_le_mul_of_nonneg_left h8 (show 0 ≤ C.u / 1000 * |z| by positivity)
  refine le_trans (le_of_eq (by ring)) h9

/-- bounds of the arc tangent -/
theorem arctan_sub_le {z : ℝ} (h1 : |z| ≤ 21 / 50) : |z - Real.arctan z| ≤ 11 / 50 * |z| := by
  have h := arctan_poly h1 1
  rw [Finset.sum_range_one, show coefA z 0 = z by simp [coefA], pow_one] at h
  refine le_trans h ?_
  have hz2 : z ^ 2 ≤ 1764 / 10000 := by
    rw [← sq_abs]
    refine le_trans (pow_le_pow_left₀ (abs_nonneg z) h1 2) (by norm_num)
  rw [div_le_iff₀ (by linarith)]
  have := mul_le_mul_of_nonneg_left hz2 (abs_nonneg z)
  nlinarith [abs_nonneg z]

/-- the sum of the terms from `m` on -/
theorem atan_series (w : C.Big) {v : FV} {z κ : ℝ} (hv : Val v z) (hr : Rep C.p C.emin z) (hz1 : |z| ≤ 21 / 50)
    {m : ℕ} (hm : m ≤ 1) (hκ0 : 0 ≤ κ) (hκ1 : κ ≤ 11) (hκ : ∀ n : ℕ, m ≤ n → 2 * (n : ℝ) + 11 ≤ κ * (2 * n + 1)) :
    ∃ s r, series C (atanTerm C v) m 171 = some s ∧ Val s r ∧ Rep C.p C.emin r ∧
      |r - (Real.arctan z - ∑ n ∈ Finset.range m, coefA z n)| ≤
        (1 + 1 / 10000) * (κ * C.u) * (17 / 14 * |z| ^ (2 * m + 1)) + 50000000 * (2 : ℝ) ^ C.emin + C.u / 1000 * |z| := by
  have hu := u_pos (F := C)
  have hu8 := w.u_small
  have hM := big_max w
  have hη := w.eta_small
  have hz := abs_nonneg z
  have hsum := termA_sum w hz1 hm hκ0 hκ
  have hA : ∑ n ∈ Finset.Ico m 171, |z| ^ (2 * n + 1) / (2 * n + 1 : ℕ) ≤ 17 / 14 * |z| ^ (2 * m + 1) := by
    refine le_trans (Finset.sum_le_sum fun n hn => ?_) (geomO_le hz hz1 (show m ≤ 171 by omega))
    exact div_le_self (by positivity) (by exact_mod_cast (show 1 ≤ 2 * n + 1 by omega))
  have hp1 : |z| ^ (2 * m + 1) ≤ 1 := pow_le_one₀ hz (by linarith)
  have hκu : κ * C.u ≤ 11 * (1 / 9007199254740992) := mul_le_mul hκ1 hu8 (le_of_lt hu) (by norm_num)
  have hκu0 : 0 ≤ κ * C.u := by positivity
  have hkp : κ * C.u * |z| ^ (2 * m + 1) ≤ 1 * 1 := mul_le_mul (by linarith) hp1 (by positivity) (by norm_num)
  obtain ⟨s, s1, r, s2, s3, s4, s5⟩ := series_near (C := C) (term := atanTerm C v)
    (a := fun n => coefA z n) (A := fun n => |z| ^ (2 * n + 1) / (2 * n + 1 : ℕ)) (W := fun n => termA C z n) 8 m 171
    (by omega) (by omega) (fun k hk1 hk2 => atanTerm_near w hv hr (by linarith) (by omega)) (by
      show (1 + C.u) ^ 8 * ∑ n ∈ Finset.Ico m 171, termA C z n ≤ _
      have : (1 + 1 / 10000) * (κ * C.u) * (17 / 14 * |z| ^ (2 * m + 1)) ≤ 2 := by
        calc _ = (1 + 1 / 10000) * (17 / 14) * (κ * C.u * |z| ^ (2 * m + 1)) := by ring
          _ ≤ _ := by linarith
      linarith)
  refine ⟨s, r, s1, s2, s3, ?_⟩
  have hp := arctan_poly171 w hz1
  have e : ∑ n ∈ Finset.Ico m 171, coefA z n = ∑ n ∈ Finset.range 171, coefA z n - ∑ n ∈ Finset.range m, coefA z n :=
    Finset.sum_Ico_eq_sub _ (by omega)
  have s5' := le_trans s5 hsum
  rw [e] at s5'
  have e2 : r - (Real.arctan z - ∑ n ∈ Finset.range m, coefA z n) =
    (r - (∑ n ∈ Finset.range 171, coefA z n - ∑ n ∈ Finset.range m, coefA z n)) +
      (∑ n ∈ Finset.range 171, coefA z n - Real.arctan z) := by ring
  rw [e2]
  refine le_trans (abs_add_le _ _) ?_
  linarith

/-! ### tiny arguments -/

/-- a value of the format bounded by `B` -/
def Small (C : Fmt) (v : FV) (B : ℝ) : Prop := ∃ r, Val v r ∧ Rep C.p C.emin r ∧ |r| ≤ B

theorem rnd_two (x : ℝ) : |C.rnd x| ≤ 2 * |x| := by
  have h := C.rnd_near x 0 Rep.zero
  rw [zero_sub, abs_neg] at h
  have := abs_add_le (C.rnd x - x) x
  rw [sub_add_cancel] at this
  linarith

namespace Small

theorem mono {v : FV} {A B : ℝ} (h : Small C v A) (hB : A ≤ B) : Small C v B := by
  obtain ⟨r, h1, h2, h3⟩ := h
  exact ⟨r, h1, h2, le_trans h3 hB⟩

theorem nonneg {v : FV} {A : ℝ} (h : Small C v A) : 0 ≤ A := by
  obtain ⟨r, h1, h2, h3⟩ := h
  exact le_trans (abs_nonneg r) h3

theorem mul {v w : FV} {A B : ℝ} (h : Small C v A) (h' : Small C w B) (hb : A * B ≤ (2 : ℝ) ^ (C.emax - 1)) :
    Small C (C.mul v w) (2 * (A * B)) := by
  have hA := h.nonneg
  obtain ⟨r, h1, h2, h3⟩ := h
  obtain ⟨s, k1, k2, k3⟩ := h'
  have hp : |r * s| ≤ A * B := by rw [abs_mul]; exact mul_le_mul h3 k3 (abs_nonneg _) hA
  refine ⟨_, mul_val h1 k1 (rnd_lt_emax (le_trans hp hb)), C.rnd_rep _, le_trans (rnd_two _) ?_⟩
  linarith

theorem add {v w : FV} {A B : ℝ} (h : Small C v A) (h' : Small C w B) (hb : A + B ≤ (2 : ℝ) ^ (C.emax - 1)) :
    Small C (C.add v w) (2 * (A + B)) := by
  obtain ⟨r, h1, h2, h3⟩ := h
  obtain ⟨s, k1, k2, k3⟩ := h'
  have hp : |r + s| ≤ A + B := le_trans (abs_add_le _ _) (by linarith)
  refine ⟨_, add_val h1 k1 (rnd_lt_emax (le_trans hp hb)), C.rnd_rep _, le_trans (rnd_two _) ?_⟩
  linarith

theorem div_ge_one {v w : FV} {A k : ℝ} (h : Small C v A) (h' : Val w k) (hk : 1 ≤ k) (hb : A ≤ (2 : ℝ) ^ (C.emax - 1)) :
    Small C (C.div v w) (2 * A) := by
  obtain ⟨r, h1, h2, h3⟩ := h
  have hp : |r / k| ≤ A := by
    rw [abs_div, abs_of_pos (show 0 < k by linarith)]
    exact le_trans (div_le_self (abs_nonneg r) hk) h3
  refine ⟨_, div_val h1 h' (by linarith) (rnd_lt_emax (le_trans hp hb)), C.rnd_rep _, le_trans (rnd_two _) ?_⟩
  linarith

theorem powN (hM : (2 : ℝ) ≤ (2 : ℝ) ^ (C.emax - 1)) {v : FV} {z : ℝ} (hv : Small C v z) (hz : z ≤ 1 / 2) (n : ℕ) : 1 ≤ n →
    ∃ r, MathScale.powNImpl C v n = some r ∧ Small C r ((2 * z) ^ n / 2) := by
  have hz0 := hv.nonneg
  induction n using Nat.strong_induction_on with
  | _ n ih =>
    intro h1
    rw [MathScale.powNImpl, if_neg (by omega)]
    by_cases h3 : n = 1
    · rw [if_pos h3]
      refine ⟨v, rfl, hv.mono ?_⟩
      rw [h3, pow_one]
      linarith
    · rw [if_neg h3]
      obtain ⟨m, hm⟩ : ∃ m, m = n / 2 := ⟨_, rfl⟩
      rw [← hm]
      obtain ⟨r, r1, r2⟩ := ih m (by omega) (by omega)
      have hle : ∀ k, (2 * z) ^ k ≤ 1 := fun k => pow_le_one₀ (by linarith) (by linarith)
      have h0 : ∀ k, 0 ≤ (2 * z) ^ k := fun k => by positivity
      have e : (2 * z) ^ (2 * m) = (2 * z) ^ m * (2 * z) ^ m := by rw [two_mul m, pow_add]
      have a1 := hle (2 * m)
      have a2 := h0 (2 * m)
      have hs := r2.mul r2 (by rw [e] at a1; linarith)
      have hs' : Small C (C.mul r r) ((2 * z) ^ (2 * m) / 2) := hs.mono (by rw [e]; linarith)
      by_cases h4 : n % 2 = 1
      · rw [if_pos h4, r1]
        refine ⟨_, rfl, ?_⟩
        have a3 : z * ((2 * z) ^ (2 * m) / 2) ≤ 1 * 1 := mul_le_mul (by linarith) (by linarith) (by linarith) (by norm_num)
        refine (hv.mul hs' (by linarith)).mono ?_
        rw [show n = 2 * m + 1 by omega, pow_succ]
        linarith
      · rw [if_neg h4, r1]
        refine ⟨_, rfl, ?_⟩
        rw [show n = 2 * m by omega]
        exact hs'

theorem series (hM : (1000000 : ℝ) ≤ (2 : ℝ) ^ (C.emax - 1)) {term : ℕ → Option FV} {T : ℝ} (hT0 : 0 ≤ T) (hT : T ≤ 1) (d : ℕ) :
    d ≤ 8 → ∀ n last : ℕ, n < last → last - n ≤ 2 ^ d → (∀ k, n ≤ k → k < last → ∃ v, term k = some v ∧ Small C v T) →
    ∃ v, MathExp.series C term n last = some v ∧ Small C v (4 ^ d * T) := by
  induction d with
  | zero =>
    intro _ n last h1 h2 h3
    obtain ⟨v, k1, k2⟩ := h3 n (le_refl _) h1
    refine ⟨v, ?_, by simpa using k2⟩
    rw [MathExp.series, if_pos (by simp at h2; omega), k1]
  | succ d ih =>
    intro hd n last h1 h2 h3
    have hp4 : (1 : ℝ) ≤ 4 ^ d := one_le_pow₀ (by norm_num)
    have hp8 : (4 : ℝ) ^ d ≤ 4 ^ 7 := pow_le_pow_right₀ (by norm_num) (by omega)
    have hTd : (4 : ℝ) ^ d * T ≤ 4 ^ 7 * 1 := mul_le_mul hp8 hT hT0 (by norm_num)
    have hT1 : 1 * T ≤ 4 ^ d * T := mul_le_mul_of_nonneg_right hp4 hT0
    by_cases hone : last - n = 1
    · obtain ⟨v, k1, k2⟩ := h3 n (le_refl _) h1
      refine ⟨v, ?_, k2.mono (by rw [pow_succ]; linarith)⟩
      rw [MathExp.series, if_pos hone, k1]
    · have hp : 2 ^ (d + 1) = 2 * 2 ^ d := by rw [pow_succ]; ring
      obtain ⟨a, a1, a2⟩ := ih (by omega) n (n + (last - n) / 2) (by omega) (by omega) (fun k hk1 hk2 => h3 k hk1 (by omega))
      obtain ⟨b, b1, b2⟩ := ih (by omega) (n + (last - n) / 2) last (by omega) (by omega) (fun k hk1 hk2 => h3 k (by omega) hk2)
      refine ⟨C.add a b, ?_, (a2.add b2 (by linarith)).mono (by rw [pow_succ]; linarith)⟩
      rw [MathExp.series, if_neg hone, if_neg (by omega), a1, b1]
      rfl

end Small

/-- the series of tiny arguments -/
theorem atan_series_tiny (w : C.Big) {v : FV} {z : ℝ} (hv : Val v z) (hr : Rep C.p C.emin z) (hz1 : |z| ≤ C.u) :
    ∃ s r, series C (atanTerm C v) 1 171 = some s ∧ Val s r ∧ Rep C.p C.emin r ∧ |r| ≤ C.u / 1000 * |z| := by
  have hu := u_pos (F := C)
  have hu8 := w.u_small
  have hM := big_max w
  have hz := abs_nonneg z
  have hv' : Small C v |z| := ⟨z, hv, hr, le_refl _⟩
  have hs1 : Small C (.num 1) 1 := ⟨1, Val.num one_ne_zero, C.rep_one, by simp⟩
  have hs2 : Small C (.num (-1)) 1 := ⟨-1, Val.num (by norm_num), C.rep_one.neg, by simp⟩
  obtain ⟨T, hT⟩ : ∃ T, T = 2 * (2 * |z|) ^ 3 := ⟨_, rfl⟩
  have hT0 : 0 ≤ T := by rw [hT]; positivity
  have h23 : (2 * |z|) ^ 3 = 8 * (|z| * |z|) * |z| := by ring
  have hzz : |z| * |z| ≤ 1 / 9007199254740992 * C.u := mul_le_mul (by linarith) hz1 hz (by norm_num)
  have hzzz := mul_le_mul_of_nonneg_right hzz hz
  have huz : C.u * |z| ≤ 1 * 1 := mul_le_mul (by linarith) (by linarith) hz (by norm_num)
  have huz0 : 0 ≤ C.u * |z| := by positivity
  have hT1 : 65536 * T ≤ C.u / 1000 * |z| := by
    rw [hT, h23]
    linarith
  obtain ⟨s, q1, q2⟩ := Small.series (C := C) (term := atanTerm C v) hM hT0 (by linarith) 8 (le_refl _) 1 171 (by norm_num) (by norm_num)
    (fun k hk1 hk2 => by
      obtain ⟨p, p1, p2⟩ := Small.powN (by linarith) hv' (by linarith) (2 * k + 1) (by omega)
      have hB : (2 * |z|) ^ (2 * k + 1) ≤ (2 * |z|) ^ 3 := pow_le_pow_of_le_one (by linarith) (by linarith) (by omega)
      have hB0 : 0 ≤ (2 * |z|) ^ (2 * k + 1) := by positivity
      have p3 : Small C (C.mul (.num (if k % 2 ≠ 0 then -1 else 1)) p) (2 * (1 * ((2 * |z|) ^ (2 * k + 1) / 2))) := by
        split_ifs
        · exact hs2.mul p2 (by linarith)
        · exact hs1.mul p2 (by linarith)
      obtain ⟨-, i2⟩ := ofInt_near w (show 1 ≤ 2 * k + 1 by omega) (by omega)
      have p4 := p3.div_ge_one i2 (by exact_mod_cast (show 1 ≤ 2 * k + 1 by omega)) (by linarith)
      refine ⟨_, ?_, p4.mono (by linarith)⟩
      unfold atanTerm powNU
      rw [if_neg (show ¬ 2 * k + 1 = 0 by omega), p1]
      rfl)
  obtain ⟨r, r1, r2, r3⟩ := q2
  refine ⟨s, r, q1, r1, r2, le_trans r3 ?_⟩
  norm_num at hT1 ⊢
  exact hT1

/-! ### the three branches -/

theorem arctan_lip (a b : ℝ) : |Real.arctan a - Real.arctan b| ≤ |a - b| := by
  have := Convex.norm_image_sub_le_of_norm_deriv_le (f := Real.arctan) (s := Set.univ) (C := 1) (x := b) (y := a)
    (fun x _ => Real.differentiableAt_arctan x) (fun x _ => by
      rw [Real.deriv_arctan, Real.norm_eq_abs, abs_of_pos (by positivity), div_le_one (by positivity)]
      nlinarith [sq_nonneg x]) convex_univ (Set.mem_univ _) (Set.mem_univ _)
  simpa using this

/-- the bounds of the branches -/
theorem bounds (h : TrigFmt L C t) : ∃ a b, Val (C.add (const L C .rootTwo) (.num 1)) a ∧ 24141 / 10000 ≤ a ∧ a ≤ 24144 / 10000 ∧
    Val (C.sub (const L C .rootTwo) (.num 1)) b ∧ 4141 / 10000 ≤ b ∧ b ≤ 4144 / 10000 := by
  obtain ⟨r, r1, r2, r3⟩ := rootTwo h.big h.sub
  have hu8 := h.big.u_small
  have hu := u_pos (F := C)
  have hη := h.big.eta_small
  have hM := big_max h.big
  rw [r1]
  have h0 : r ≠ 0 := by linarith
  have a1 : |r + 1| ≤ 3 := by rw [abs_of_pos (by linarith)]; linarith
  have b1 : |r - 1| ≤ 3 := by rw [abs_of_pos (by linarith)]; linarith
  refine ⟨_, _, add_val (Val.num h0) (Val.num one_ne_zero) (rnd_lt_emax (by linarith)), ?_, ?_,
    sub_val (Val.num h0) (Val.num one_ne_zero) (rnd_lt_emax (by linarith)), ?_, ?_⟩
  all_goals
    have a2 := abs_le.1 (C.rnd_err (r + 1))
    have b2 := abs_le.1 (C.rnd_err (r - 1))
    have a3 := mul_le_mul_of_nonneg_left a1 (le_of_lt hu)
    have b3 := mul_le_mul_of_nonneg_left b1 (le_of_lt hu)
    linarith [a2.1, a2.2, b2.1, b2.2]

theorem lt_val {v : FV} {a x : ℝ} (hv : Val v a) (hx : 0 < x) : v.lt (.num x) ↔ a < x := by
  rcases eq_or_ne a 0 with rfl | ha
  · obtain ⟨s, rfl⟩ := hv
    simp [mkv_zero, hx]
  · rw [hv.eq_num ha]
    simp

/-- `x + S₁(x)` -/
theorem low_series (w : C.Big) {x : ℝ} (hr : Rep C.p C.emin x) (h0 : 0 < x) (h1 : x ≤ 4144 / 10000) :
    ∃ s r, series C (atanTerm C (.num x)) 1 171 = some s ∧ Val s r ∧ Rep C.p C.emin r ∧
      |x + r - Real.arctan x| ≤ 94 / 100 * (C.u * x) := by
  have hu := u_pos (F := C)
  have hu8 := w.u_small
  have ha : |x| = x := abs_of_pos h0
  have hux : 0 < C.u * x := by positivity
  rcases le_or_gt x C.u with hc | hc
  · obtain ⟨s, r, s1, s2, s3, s4⟩ := atan_series_tiny w (Val.num (ne_of_gt h0)) hr (by rw [ha]; exact hc)
    refine ⟨s, r, s1, s2, s3, ?_⟩
    have hp := arctan_poly (z := x) (by rw [ha]; linarith) 1
    rw [Finset.sum_range_one, show coefA x 0 = x by simp [coefA], pow_one, ha] at hp
    have h2 : x * x ^ 2 / (1 - x ^ 2) ≤ C.u * x / 1000 := by
      have hx2 : x ^ 2 ≤ 1 / 9007199254740992 * C.u := by
        rw [sq]; exact mul_le_mul (by linarith) hc (le_of_lt h0) (by norm_num)
      rw [div_le_iff₀ (by linarith)]
      have a := mul_le_mul_of_nonneg_left hx2 (le_of_lt h0)
      have b : (1 : ℝ) / 2 ≤ 1 - x ^ 2 := by linarith
      have c := mul_le_mul_of_nonneg_left b (show 0 ≤ C.u * x / 1000 by positivity)
      linarith
    rw [ha] at s4
    have := abs_add_le r (x - Real.arctan x)
    rw [show x + r - Real.arctan x = r + (x - Real.arctan x) by ring]
    linarith
  · obtain ⟨s, r, s1, s2, s3, s4⟩ := atan_series (κ := 13 / 3) w (Val.num (ne_of_gt h0)) hr (by rw [ha]; linarith) (le_refl 1)
      (by norm_num) (by norm_num) (fun n hn => by
        have : (1 : ℝ) ≤ n := by exact_mod_cast hn
        linarith)
    refine ⟨s, r, s1, s2, s3, ?_⟩
    rw [Finset.sum_range_one, show coefA x 0 = x by simp [coefA], ha] at s4
    rw [show x + r - Real.arctan x = r - (Real.arctan x - x) by ring]
    refine le_trans s4 ?_
    have hη : 50000000 * (2 : ℝ) ^ C.emin ≤ C.u / 1000 * x := by
      have a := NearR.eta_rel w
      have b := w.u_ge
      have c : (1 / 10 ^ 60 : ℝ) * 50000000 ≤ (2 : ℝ) ^ (-113 : ℤ) / 1000 := by norm_num
      have d : (1 / 10 ^ 60 : ℝ) * 50000000 ≤ x / 1000 :=
        le_trans c (div_le_div_of_nonneg_right (le_trans b (le_of_lt hc)) (by norm_num))
      have e := mul_le_mul_of_nonneg_left d (le_of_lt hu)
      have f := mul_le_mul_of_nonneg_right a (show (0 : ℝ) ≤ 50000000 by norm_num)
      calc _ = (2 : ℝ) ^ C.emin * 50000000 := by ring
        _ ≤ _ := f
        _ = C.u * (1 / 10 ^ 60 * 50000000) := by ring
        _ ≤ _ := e
        _ = _ := by ring
    have hx3 : x ^ (2 * 1 + 1) ≤ 1764 / 10000 * x := by
      have : x * x ≤ 42 / 100 * (42 / 100) := mul_le_mul (by linarith) (by linarith) (le_of_lt h0) (by norm_num)
      have := mul_le_mul_of_nonneg_right this (le_of_lt h0)
      norm_num
      linarith [show x ^ 3 = x * x * x by ring]
    have := mul_le_mul_of_nonneg_left hx3 (le_of_lt hu)
    linarith

/-- the full series -/
theorem full_series (w : C.Big) {v : FV} {z : ℝ} (hv : Val v z) (hr : Rep C.p C.emin z) (hz1 : |z| ≤ 21 / 50) :
    ∃ s r, series C (atanTerm C v) 0 171 = some s ∧ Val s r ∧ Rep C.p C.emin r ∧ |r - Real.arctan z| ≤ 57 / 10 * C.u := by
  have hu := u_pos (F := C)
  obtain ⟨s, r, s1, s2, s3, s4⟩ := atan_series (κ := 11) w hv hr hz1 (m := 0) (by norm_num) (by norm_num) (by norm_num)
    (fun n _ => by
      have : (0 : ℝ) ≤ n := by positivity
      linarith)
  refine ⟨s, r, s1, s2, s3, ?_⟩
  rw [Finset.sum_range_zero, sub_zero, show 2 * 0 + 1 = 1 by norm_num, pow_one] at s4
  refine le_trans s4 ?_
  have a := NearR.eta_rel w
  have b : C.u * (1 / 10 ^ 60) * 50000000 ≤ C.u / 1000 := by
    rw [mul_assoc, div_eq_mul_one_div]
    exact mul_le_mul_of_nonneg_left (by norm_num) (le_of_lt hu)
  have f := le_trans (mul_le_mul_of_nonneg_right a (show (0 : ℝ) ≤ 50000000 by norm_num)) b
  have c := mul_le_mul_of_nonneg_left hz1 (le_of_lt hu)
  linarith

/-- conclusion from the sum of a constant and the series -/
theorem finish (w : C.Big) {c r A d : ℝ} (hc : Rep C.p C.emin c) (hr : Rep C.p C.emin r) (he : |c + r - A| ≤ d * C.u)
    (hd0 : 0 ≤ d) (hd : d ≤ 20) (hA0 : 0 ≤ A) (hA : A ≤ 2) :
    |C.rnd (c + r) - A| ≤ (d + 1 / 1000 + A) * C.u ∧ |C.rnd (c + r)| < (2 : ℝ) ^ C.emax ∧ |c + r| ≤ 3 := by
  have hu := u_pos (F := C)
  have hu8 := w.u_small
  have hM := big_max w
  have h1 := rnd_add_rel (F := C) hc hr
  have hdu : d * C.u ≤ 20 * (1 / 9007199254740992) := mul_le_mul hd hu8 (le_of_lt hu) (by norm_num)
  have h2 : |c + r| ≤ A + d * C.u := by
    have := abs_add_le (c + r - A) A
    rw [sub_add_cancel, abs_of_nonneg hA0] at this
    linarith
  refine ⟨?_, rnd_lt_emax (by linarith), by linarith⟩
  have h3 := abs_add_le (C.rnd (c + r) - (c + r)) (c + r - A)
  rw [sub_add_sub_cancel] at h3
  have h4 := mul_le_mul_of_nonneg_left h2 (le_of_lt hu)
  have h5 := mul_le_mul_of_nonneg_left hdu (le_of_lt hu)
  linarith

theorem impl_low (h : TrigFmt L C t) {x : ℝ} (hx : C.Has (.num x)) (h0 : 0 < x) (h1 : x ≤ 4144 / 10000) :
    ∃ s, series C (atanTerm C (.num x)) 1 171 = some s ∧ ∃ r, Val (C.add (.num x) s) r ∧ Rep C.p C.emin r ∧
      |r| < (2 : ℝ) ^ C.emax ∧ |r - Real.arctan x| ≤ 40 * C.u * Real.arctan x := by
  have w := h.big
  have hu := u_pos (F := C)
  have hu8 := w.u_small
  have hM := big_max w
  have ha : |x| = x := abs_of_pos h0
  obtain ⟨s, r, s1, s2, s3, s4⟩ := low_series w hx.2.1 h0 h1
  have hl := abs_le.1 (arctan_sub_le (z := x) (by rw [ha]; linarith))
  rw [ha] at hl
  have hux : 0 < C.u * x := by positivity
  have hux1 : C.u * x ≤ 1 / 9007199254740992 * x := mul_le_mul_of_nonneg_right hu8 (le_of_lt h0)
  have hb : |x + r| ≤ 13 / 10 * x := by
    have := abs_add_le (x + r - Real.arctan x) (Real.arctan x)
    rw [sub_add_cancel, abs_of_nonneg (show 0 ≤ Real.arctan x by linarith [hl.2])] at this
    linarith [hl.1]
  refine ⟨s, s1, _, add_val (Val.num (ne_of_gt h0)) s2 (rnd_lt_emax (by linarith)), C.rnd_rep _, rnd_lt_emax (by linarith), ?_⟩
  have h2 := rnd_add_rel (F := C) hx.2.1 s3
  have h3 := abs_add_le (C.rnd (x + r) - (x + r)) (x + r - Real.arctan x)
  rw [sub_add_sub_cancel] at h3
  have h4 := mul_le_mul_of_nonneg_left hb (le_of_lt hu)
  have h5 := mul_le_mul_of_nonneg_left (show 39 / 50 * x ≤ Real.arctan x by linarith [hl.2]) (show 0 ≤ 40 * C.u by positivity)
  linarith

theorem arctan_mid {x : ℝ} (h0 : 0 < x) : Real.arctan x = Real.pi / 4 + Real.arctan ((x - 1) / (x + 1)) := by
  have h1 : (x - 1) / (x + 1) < 1 := by rw [div_lt_one (by linarith)]; linarith
  have := Real.arctan_add (x := 1) (y := (x - 1) / (x + 1)) (by linarith)
  rw [← Real.arctan_one, this]
  congr 1
  field_simp
  ring

/-- the reduced argument of the middle branch -/
theorem mid_arg (w : C.Big) {x : ℝ} (hr : Rep C.p C.emin x) (h0 : 4141 / 10000 < x) (h1 : x ≤ 24144 / 10000) :
    ∃ z, Val (C.div (C.sub (.num x) (.num 1)) (C.add (.num x) (.num 1))) z ∧ Rep C.p C.emin z ∧ |z| ≤ 21 / 50 ∧
      |z - (x - 1) / (x + 1)| ≤ 13 / 10 * C.u := by
  have hu := u_pos (F := C)
  have hu8 := w.u_small
  have hM := big_max w
  have hη := NearR.eta_rel w
  have hη2 : C.u * (1 / 10 ^ 60) ≤ C.u / 1000 := by
    rw [div_eq_mul_one_div]
    exact mul_le_mul_of_nonneg_left (by norm_num) (le_of_lt hu)
  have hx : x ≠ 0 := by linarith
  obtain ⟨q, hq⟩ : ∃ q, q = (x - 1) / (x + 1) := ⟨_, rfl⟩
  rw [← hq]
  have hqx : x - 1 = q * (x + 1) := by rw [hq]; field_simp
  have hqa : |q| ≤ 4145 / 10000 := by
    rw [hq, abs_le]
    constructor
    · rw [le_div_iff₀ (by linarith)]; linarith
    · rw [div_le_iff₀ (by linarith)]; linarith
  have va := sub_val (F := C) (Val.num hx) (Val.num one_ne_zero) (rnd_lt_emax (by
    rw [hqx, abs_mul, abs_of_pos (show 0 < x + 1 by linarith)]
    have : |q| * (x + 1) ≤ 1 * 4 := mul_le_mul (by linarith) (by linarith) (by linarith) (by norm_num)
    linarith))
  have vb := add_val (F := C) (Val.num hx) (Val.num one_ne_zero) (rnd_lt_emax (by
    rw [abs_of_pos (show 0 < x + 1 by linarith)]; linarith))
  have ea := rnd_add_rel (F := C) hr C.rep_one.neg
  rw [← sub_eq_add_neg] at ea
  have eb := rnd_add_rel (F := C) hr C.rep_one
  rw [abs_of_pos (show 0 < x + 1 by linarith)] at eb
  obtain ⟨a, hA⟩ : ∃ a, a = C.rnd (x - 1) := ⟨_, rfl⟩
  obtain ⟨b, hB⟩ : ∃ b, b = C.rnd (x + 1) := ⟨_, rfl⟩
  rw [← hA] at va ea
  rw [← hB] at vb eb
  have hxu : C.u * (x + 1) ≤ 1 / 9007199254740992 * (x + 1) := mul_le_mul_of_nonneg_right hu8 (by linarith)
  have hb := abs_le.1 eb
  have hb0 : (x + 1) * (1 - C.u) ≤ b := by linarith [hb.1]
  have hbp : 0 < b := by linarith [hb.1]
  have hab : |a / b - q| ≤ 2001 / 1000 * C.u * |q| := by
    have e : a / b - q = ((a - (x - 1)) - q * (b - (x + 1))) / b := by
      field_simp
      linarith
    rw [e, abs_div, abs_of_pos hbp, div_le_iff₀ hbp]
    have t1 := abs_sub (a - (x - 1)) (q * (b - (x + 1)))
    rw [abs_mul] at t1
    have t2 := mul_le_mul_of_nonneg_left eb (abs_nonneg q)
    rw [hqx, abs_mul, abs_of_pos (show 0 < x + 1 by linarith)] at ea
    have t3 := mul_le_mul_of_nonneg_left hb0 (show 0 ≤ 2001 / 1000 * C.u * |q| by positivity)
    have t4 : 0 ≤ C.u * |q| * (x + 1) := by have := abs_nonneg q; have : 0 ≤ x + 1 := by linarith
                                            positivity
    have t5 := mul_le_mul_of_nonneg_left hu8 t4
    rw [← hqx] at ea
    linarith
  have hab2 : |a / b - q| ≤ 83 / 100 * C.u := by
    have := mul_le_mul_of_nonneg_left hqa (show 0 ≤ 2001 / 1000 * C.u by positivity)
    linarith
  have hab3 : |a / b| ≤ 4146 / 10000 := by
    have := abs_add_le (a / b - q) q
    rw [sub_add_cancel] at this
    linarith
  have vz := div_val (F := C) va vb (ne_of_gt hbp) (rnd_lt_emax (by linarith))
  have ez := C.rnd_err (a / b)
  have h5 := mul_le_mul_of_nonneg_left hab3 (le_of_lt hu)
  have e1 : |C.rnd (a / b) - q| ≤ 13 / 10 * C.u := by
    have := abs_add_le (C.rnd (a / b) - a / b) (a / b - q)
    rw [sub_add_sub_cancel] at this
    linarith
  refine ⟨_, vz, C.rnd_rep _, ?_, e1⟩
  have := abs_add_le (C.rnd (a / b) - q) q
  rw [sub_add_cancel] at this
  linarith

theorem impl_mid (h : TrigFmt L C t) {x : ℝ} (hx : C.Has (.num x)) (h0 : 4141 / 10000 < x) (h1 : x ≤ 24144 / 10000) :
    ∃ s, series C (atanTerm C (C.div (C.sub (.num x) (.num 1)) (C.add (.num x) (.num 1)))) 0 171 = some s ∧
      ∃ r, Val (C.add (const L C .quarterPi) s) r ∧ Rep C.p C.emin r ∧
      |r| < (2 : ℝ) ^ C.emax ∧ |r - Real.arctan x| ≤ 40 * C.u * Real.arctan x := by
  have w := h.big
  have hu := u_pos (F := C)
  have hM := big_max w
  have p1 := Real.pi_gt_d4
  have p2 := Real.pi_lt_d4
  obtain ⟨z, z1, z2, z3, z4⟩ := mid_arg w hx.2.1 h0 h1
  obtain ⟨s, r, s1, s2, s3, s4⟩ := full_series w z1 z2 z3
  obtain ⟨c, c1, c2, c3⟩ := const_near h .quarterPi
  rw [show Const.quarterPi.real = Real.pi / 4 from rfl] at c3
  have hx0 : 0 < x := by linarith
  have hlo : 41 / 125 ≤ Real.arctan x := by
    have a := arctan_poly (z := 4141 / 10000) (by rw [abs_of_pos (by norm_num)]; norm_num) 1
    rw [Finset.sum_range_one, show coefA (4141 / 10000) 0 = 4141 / 10000 by norm_num [coefA], abs_of_pos (a := (4141 / 10000 : ℝ)) (by norm_num)] at a
    have b := Real.arctan_strictMono h0
    have c := (abs_le.1 a).2
    norm_num at c
    linarith
  have hhi : Real.arctan x ≤ 13 / 10 := by
    rw [arctan_mid hx0]
    have a := (abs_le.1 (arctan_lip ((x - 1) / (x + 1)) 0)).2
    rw [Real.arctan_zero, sub_zero, sub_zero] at a
    have b : |(x - 1) / (x + 1)| ≤ 42 / 100 := by
      rw [abs_le]
      constructor
      · rw [le_div_iff₀ (by linarith)]; linarith
      · rw [div_le_iff₀ (by linarith)]; linarith
    linarith
  have hl := arctan_lip z ((x - 1) / (x + 1))
  have hpu : C.u * Real.pi ≤ C.u * 3.1416 := mul_le_mul_of_nonneg_left (le_of_lt p2) (le_of_lt hu)
  have he : |c + r - Real.arctan x| ≤ 95 / 10 * C.u := by
    rw [arctan_mid hx0, show c + r - (Real.pi / 4 + Real.arctan ((x - 1) / (x + 1))) = (c - Real.pi / 4) + ((r - Real.arctan z) +
      (Real.arctan z - Real.arctan ((x - 1) / (x + 1)))) by ring]
    have a := abs_add_le (c - Real.pi / 4) ((r - Real.arctan z) + (Real.arctan z - Real.arctan ((x - 1) / (x + 1))))
    have b := abs_add_le (r - Real.arctan z) (Real.arctan z - Real.arctan ((x - 1) / (x + 1)))
    norm_num at c3 hpu
    linarith
  obtain ⟨f1, f2, f3⟩ := finish w c2.2.1 s3 he (by norm_num) (by norm_num) (by linarith) (by linarith)
  refine ⟨s, s1, _, by rw [c1]; exact add_val (Val.num c2.1) s2 f2, C.rnd_rep _, f2, le_trans f1 ?_⟩
  have := mul_le_mul_of_nonneg_left hlo (le_of_lt hu)
  have := mul_le_mul_of_nonneg_left hhi (le_of_lt hu)
  linarith

theorem impl_high (h : TrigFmt L C t) {x : ℝ} (h0 : 24141 / 10000 < x) :
    ∃ s, series C (atanTerm C (C.div (.num 1) (.num x))) 0 171 = some s ∧
      ∃ r, Val (C.sub (const L C .halfPi) s) r ∧ Rep C.p C.emin r ∧
      |r| < (2 : ℝ) ^ C.emax ∧ |r - Real.arctan x| ≤ 40 * C.u * Real.arctan x := by
  have w := h.big
  have hu := u_pos (F := C)
  have hu8 := w.u_small
  have hM := big_max w
  have p1 := Real.pi_gt_d4
  have p2 := Real.pi_lt_d4
  have hx0 : 0 < x := by linarith
  have hη := NearR.eta_rel w
  have hη2 : C.u * (1 / 10 ^ 60) ≤ C.u / 1000 := by
    rw [div_eq_mul_one_div]
    exact mul_le_mul_of_nonneg_left (by norm_num) (le_of_lt hu)
  have hi0 : 0 < 1 / x := by positivity
  have hi : 1 / x ≤ 4143 / 10000 := by rw [div_le_iff₀ hx0]; linarith
  have hia : |1 / x| ≤ 4143 / 10000 := by rw [abs_of_pos hi0]; exact hi
  have vz := div_val (F := C) (Val.num one_ne_zero) (Val.num (ne_of_gt hx0)) (ne_of_gt hx0) (rnd_lt_emax (by linarith))
  have ez := C.rnd_err (1 / x)
  have hm := mul_le_mul_of_nonneg_left hia (le_of_lt hu)
  have ez' : |C.rnd (1 / x) - 1 / x| ≤ 42 / 100 * C.u := by linarith
  have z3 : |C.rnd (1 / x)| ≤ 21 / 50 := by
    have := abs_add_le (C.rnd (1 / x) - 1 / x) (1 / x)
    rw [sub_add_cancel] at this
    linarith
  obtain ⟨s, r, s1, s2, s3, s4⟩ := full_series w vz (C.rnd_rep _) z3
  obtain ⟨c, c1, c2, c3, -, -⟩ := halfPi_near h
  have hl := arctan_lip (C.rnd (1 / x)) (1 / x)
  have hid : Real.arctan x = Real.pi / 2 - Real.arctan (1 / x) := by
    have := Real.arctan_inv_of_pos hx0
    rw [one_div, this]; ring
  have hat0 : 0 ≤ Real.arctan (1 / x) := Real.arctan_nonneg.2 (le_of_lt hi0)
  have hat1 : Real.arctan (1 / x) ≤ 4143 / 10000 := by
    have a := (abs_le.1 (arctan_lip (1 / x) 0)).2
    rw [Real.arctan_zero, sub_zero, sub_zero] at a
    linarith
  have he : |c + -r - Real.arctan x| ≤ 115 / 10 * C.u := by
    rw [hid, show c + -r - (Real.pi / 2 - Real.arctan (1 / x)) = (c - Real.pi / 2) + -((r - Real.arctan (C.rnd (1 / x))) +
      (Real.arctan (C.rnd (1 / x)) - Real.arctan (1 / x))) by ring]
    have a := abs_add_le (c - Real.pi / 2) (-((r - Real.arctan (C.rnd (1 / x))) +
      (Real.arctan (C.rnd (1 / x)) - Real.arctan (1 / x))))
    rw [abs_neg] at a
    have b := abs_add_le (r - Real.arctan (C.rnd (1 / x))) (Real.arctan (C.rnd (1 / x)) - Real.arctan (1 / x))
    linarith
  norm_num at p1 p2
  obtain ⟨f1, f2, f3⟩ := finish w c2.2.1 s3.neg he (by norm_num) (by norm_num) (by linarith) (by linarith)
  have vs := add_val (F := C) (Val.num c2.1) s2.neg f2
  refine ⟨s, s1, _, by rw [c1]; exact vs, C.rnd_rep _, f2, le_trans f1 ?_⟩
  have := mul_le_mul_of_nonneg_left (show 1 ≤ Real.arctan x by linarith) (le_of_lt hu)
  have := mul_le_mul_of_nonneg_left (show Real.arctan x ≤ 2 by linarith) (le_of_lt hu)
  linarith

/-- `atan_impl` of positive numbers -/
theorem impl_near (h : TrigFmt L C t) {x : ℝ} (hx : C.Has (.num x)) (h0 : 0 < x) :
    ∃ v r, atanImpl L C t (.num x) = some v ∧ Val v r ∧ Rep C.p C.emin r ∧ |r| < (2 : ℝ) ^ C.emax ∧
      |r - Real.arctan x| ≤ 40 * C.u * Real.arctan x := by
  obtain ⟨a, b, a1, a2, a3, b1, b2, b3⟩ := bounds h
  unfold atanImpl
  rw [limit_big h.big h.tbl]
  by_cases hc : a < x
  · rw [if_pos ((lt_val a1 h0).2 hc)]
    obtain ⟨s, s1, r, r1, r2, r3, r4⟩ := impl_high h (show 24141 / 10000 < x by linarith)
    exact ⟨_, r, by rw [s1]; rfl, r1, r2, r3, r4⟩
  · rw [if_neg (fun hh => hc ((lt_val a1 h0).1 hh))]
    by_cases hd : b < x
    · rw [if_pos ((lt_val b1 h0).2 hd)]
      obtain ⟨s, s1, r, r1, r2, r3, r4⟩ := impl_mid h hx (by linarith) (by linarith)
      exact ⟨_, r, by rw [s1]; rfl, r1, r2, r3, r4⟩
    · rw [if_neg (fun hh => hd ((lt_val b1 h0).1 hh))]
      obtain ⟨s, s1, r, r1, r2, r3, r4⟩ := impl_low h hx h0 (by linarith)
      exact ⟨_, r, by rw [s1]; rfl, r1, r2, r3, r4⟩

/-- `atan` of the type of computation -/
theorem atanC (h : TrigFmt L C t) {v : FV} {x : ℝ} (hv : Val v x) (hr : Rep C.p C.emin x) (hb : |x| < (2 : ℝ) ^ C.emax) :
    ∃ a r, atan L C C t v = some (C.cvt a) ∧ Val a r ∧ Rep C.p C.emin r ∧ |r| < (2 : ℝ) ^ C.emax ∧
      |r - Real.arctan x| ≤ 40 * C.u * |Real.arctan x| := by
  rcases lt_trichotomy x 0 with h0 | rfl | h0
  · have hn : C.Has (.num (-x)) := ⟨by linarith, hr.neg, by rwa [abs_neg]⟩
    obtain ⟨a, r, a1, a2, a3, a4, a5⟩ := impl_near h hn (by linarith)
    rw [Real.arctan_neg] at a5
    refine ⟨a.neg, -r, ?_, a2.neg, a3.neg, by rwa [abs_neg], ?_⟩
    · rw [hv.eq_num (ne_of_lt h0)]
      simp only [atan, MathClass.isnan]
      simp [ne_of_lt h0, h0, FV.neg, cvt_num hn.2.1 hn.2.2 hn.1, a1]
    · rw [abs_of_neg (Real.arctan_lt_zero.2 h0), show -r - Real.arctan x = -(r - -Real.arctan x) by ring, abs_neg]
      exact a5
  · obtain ⟨s, rfl⟩ := hv
    refine ⟨.zero s, 0, ?_, Val.zero s, Rep.zero, by rw [abs_zero]; positivity, by simp⟩
    rw [mkv_zero]
    simp [atan, MathClass.isnan, Fmt.cvt]
  · obtain ⟨a, r, a1, a2, a3, a4, a5⟩ := impl_near h ⟨ne_of_gt h0, hr, hb⟩ h0
    refine ⟨a, r, ?_, a2, a3, a4, ?_⟩
    · rw [hv.eq_num (ne_of_gt h0)]
      simp only [atan, MathClass.isnan]
      simp [ne_of_gt h0, not_lt.2 (le_of_lt h0), cvt_num hr hb (ne_of_gt h0), a1]
    · rw [abs_of_pos (Real.arctan_pos.2 h0)]
      exact a5

/-- the arc tangent of a rounded argument -/
theorem arctan_pert {u q r ε : ℝ} (hu : 0 < u) (hε : 0 ≤ ε) (h0 : 0 < q) (he : |r - q| ≤ u * q + ε) (h1 : 1 ≤ q → 1 ≤ r) :
    |Real.arctan r - Real.arctan q| ≤ 4 * u * Real.arctan q + ε := by
  rcases lt_or_ge q 1 with hq | hq
  · refine le_trans (arctan_lip r q) (le_trans he ?_)
    have hA : q ≤ 4 * Real.arctan q := by
      rcases le_or_gt q (21 / 50) with h2 | h2
      · have := (abs_le.1 (arctan_sub_le (z := q) (by rw [abs_of_pos h0]; exact h2))).2
        rw [abs_of_pos h0] at this
        linarith
      · have a := (abs_le.1 (arctan_sub_le (z := 21 / 50) (by rw [abs_of_pos (by norm_num)]))).2
        rw [abs_of_pos (a := (21 / 50 : ℝ)) (by norm_num)] at a
        have b := Real.arctan_strictMono h2
        linarith
    have := mul_le_mul_of_nonneg_left hA (le_of_lt hu)
    linarith
  · have hr := h1 hq
    have e1 := Real.arctan_inv_of_pos h0
    have e2 := Real.arctan_inv_of_pos (show 0 < r by linarith)
    have e3 : Real.arctan r - Real.arctan q = -(Real.arctan r⁻¹ - Real.arctan q⁻¹) := by rw [e1, e2]; ring
    rw [e3, abs_neg]
    refine le_trans (arctan_lip _ _) ?_
    have e4 : r⁻¹ - q⁻¹ = -(r - q) / (r * q) := by
      field_simp
      ring
    have hrq : q ≤ r * q := le_mul_of_one_le_left (by linarith) hr
    rw [e4, abs_div, abs_neg, abs_of_pos (show 0 < r * q by nlinarith), div_le_iff₀ (by nlinarith)]
    have hA : 1 / 2 ≤ Real.arctan q := by
      have a := Real.arctan_mono hq
      rw [Real.arctan_one] at a
      linarith [Real.pi_gt_three]
    have hA2 : u * (1 / 2) ≤ u * Real.arctan q := mul_le_mul_of_nonneg_left hA (le_of_lt hu)
    have h3 : (2 * u + ε) * q ≤ (4 * u * Real.arctan q + ε) * (r * q) := mul_le_mul (by linarith) hrq (by linarith) (by linarith)
    nlinarith [mul_pos hu h0]

/-- `atan(y / x)` -/
theorem atan_quot (h : TrigFmt L C t) {x y : ℝ} (hx : C.Has (.num x)) (hy : C.Has (.num y)) :
    ∃ v z, atan L C C t (C.div (.num y) (.num x)) = some v ∧ Val v z ∧ Rep C.p C.emin z ∧ |z| < (2 : ℝ) ^ C.emax ∧
      |z - Real.arctan (y / x)| ≤ 46 * C.u * |Real.arctan (y / x)| + (2 : ℝ) ^ C.emin := by
  have w := h.big
  have hu := u_pos (F := C)
  have hu8 := w.u_small
  have hη0 : (0 : ℝ) < (2 : ℝ) ^ C.emin := by positivity
  have hq0 : y / x ≠ 0 := div_ne_zero hy.1 hx.1
  obtain ⟨q, hq⟩ : ∃ q, q = y / x := ⟨_, rfl⟩
  rw [← hq] at hq0 ⊢
  rcases lt_or_ge |C.rnd q| ((2 : ℝ) ^ C.emax) with hb | hb
  · have vd := div_val (F := C) (Val.num hy.1) (Val.num hx.1) hx.1 (by rw [← hq]; exact hb)
    rw [← hq] at vd
    obtain ⟨a, z, a1, a2, a3, a4, a5⟩ := atanC h vd (C.rnd_rep q) hb
    have vc := cvt_val (F := C) a2 (by rw [rnd_of_rep a3]; exact a4)
    rw [rnd_of_rep a3] at vc
    refine ⟨_, z, a1, vc, a3, a4, ?_⟩
    have hD : |Real.arctan (C.rnd q) - Real.arctan q| ≤ 4 * C.u * |Real.arctan q| + (2 : ℝ) ^ C.emin / 2 := by
      have he := C.rnd_err q
      rcases lt_or_gt_of_ne hq0 with hn | hp
      · rw [abs_of_neg hn] at he
        have := arctan_pert (q := -q) (r := -C.rnd q) hu (show 0 ≤ (2 : ℝ) ^ C.emin / 2 by positivity) (by linarith)
          (by rw [show -C.rnd q - -q = -(C.rnd q - q) by ring, abs_neg]; exact he) (fun h1 => by
            have := rnd_le (F := C) (show q ≤ -1 by linarith) C.rep_one.neg
            linarith)
        rw [Real.arctan_neg, Real.arctan_neg, show -Real.arctan (C.rnd q) - -Real.arctan q = -(Real.arctan (C.rnd q) - Real.arctan q) by ring,
          abs_neg] at this
        rw [abs_of_neg (Real.arctan_lt_zero.2 hn)]
        exact this
      · rw [abs_of_pos hp] at he
        have := arctan_pert (q := q) (r := C.rnd q) hu (show 0 ≤ (2 : ℝ) ^ C.emin / 2 by positivity) hp he
          (fun h1 => le_rnd h1 C.rep_one)
        rw [abs_of_pos (Real.arctan_pos.2 hp)]
        exact this
    have h2 := abs_add_le (z - Real.arctan (C.rnd q)) (Real.arctan (C.rnd q) - Real.arctan q)
    rw [sub_add_sub_cancel] at h2
    have h3 := abs_add_le (Real.arctan (C.rnd q) - Real.arctan q) (Real.arctan q)
    rw [sub_add_cancel] at h3
    have hA := abs_nonneg (Real.arctan q)
    have h4 := mul_le_mul_of_nonneg_left (show |Real.arctan (C.rnd q)| ≤ 4 * C.u * |Real.arctan q| + (2 : ℝ) ^ C.emin / 2 + |Real.arctan q| by linarith)
      (show 0 ≤ 40 * C.u by positivity)
    have h5 := mul_le_mul_of_nonneg_right hu8 (show 0 ≤ C.u * |Real.arctan q| by positivity)
    have h6 := mul_le_mul_of_nonneg_right hu8 (le_of_lt hη0)
    have h7 : 0 ≤ C.u * |Real.arctan q| := by positivity
    linarith
  · have hd : C.div (.num y) (.num x) = .inf (decide (q < 0)) := by
      rw [hq]
      exact MathHyp.ofReal_inf (by change _ ≤ |C.rnd (y / x)|; rw [← hq]; exact hb)
    have hbig : (2 : ℝ) ^ (C.emax - 1) < |q| := by
      by_contra hc
      exact absurd (rnd_lt_emax (F := C) (not_lt.1 hc)) (not_lt.2 hb)
    have hM := NearR.big_max30 w
    obtain ⟨c, c1, c2, c3, c4, c5⟩ := halfPi_near h
    have hqp : 0 < |q| := abs_pos.2 hq0
    have hA : Real.pi / 2 - C.u ≤ Real.arctan (|q|) := by
      have e := Real.arctan_inv_of_pos hqp
      have a := (abs_le.1 (arctan_lip |q|⁻¹ 0)).2
      rw [Real.arctan_zero, sub_zero, sub_zero, abs_of_pos (inv_pos.2 hqp)] at a
      have b : |q|⁻¹ ≤ C.u := by
        rw [inv_le_iff_one_le_mul₀ hqp]
        have b1 : (1 : ℝ) ≤ (2 : ℝ) ^ (-113 : ℤ) * 10 ^ 60 := by norm_num
        refine le_trans b1 ?_
        exact mul_le_mul w.u_ge (le_trans hM (le_of_lt hbig)) (by positivity) (le_of_lt hu)
      linarith
    have hA2 := Real.arctan_lt_pi_div_two (|q|)
    have hpi := Real.pi_gt_three
    have he : |c - Real.arctan (|q|)| ≤ 46 * C.u * Real.arctan (|q|) := by
      have a := abs_add_le (c - Real.pi / 2) (Real.pi / 2 - Real.arctan (|q|))
      rw [sub_add_sub_cancel, abs_of_nonneg (a := Real.pi / 2 - Real.arctan (|q|)) (by linarith)] at a
      have b := mul_le_mul_of_nonneg_left (show 1 ≤ Real.arctan (|q|) by linarith) (show 0 ≤ 46 * C.u by positivity)
      linarith
    rw [hd]
    rcases lt_or_gt_of_ne hq0 with hn | hp
    · refine ⟨.num (-c), -c, ?_, Val.num (by linarith), c2.2.1.neg, by rw [abs_neg]; exact c2.2.2, ?_⟩
      · rw [decide_eq_true hn]
        simp [atan, MathClass.isnan, c1, FV.neg]
      · rw [abs_of_neg hn, Real.arctan_neg] at he
        rw [abs_of_neg (Real.arctan_lt_zero.2 hn), show -c - Real.arctan q = -(c - -Real.arctan q) by ring, abs_neg]
        linarith
    · refine ⟨.num c, c, ?_, Val.num (by linarith), c2.2.1, c2.2.2, ?_⟩
      · rw [decide_eq_false (not_lt.2 (le_of_lt hp))]
        simp [atan, MathClass.isnan, c1]
      · rw [abs_of_pos hp] at he
        rw [abs_of_pos (Real.arctan_pos.2 hp)]
        linarith

/-- the argument of a complex number of positive real part -/
theorem arg_pos {x y : ℝ} (hx : 0 < x) : Complex.arg ⟨x, y⟩ = Real.arctan (y / x) := by
  have h1 := Complex.tan_arg ⟨x, y⟩
  have h2 := abs_lt.1 (Complex.abs_arg_lt_pi_div_two_iff (z := ⟨x, y⟩).2 (Or.inl hx))
  simp only at h1
  rw [← h1, Real.arctan_tan h2.1 h2.2]

theorem arg_neg_pos {x y : ℝ} (hx : x < 0) (hy : 0 < y) : Complex.arg ⟨x, y⟩ = Real.arctan (y / x) + Real.pi := by
  have h := Complex.arg_neg_eq_arg_sub_pi_of_im_pos (x := ⟨x, y⟩) hy
  have h2 := arg_pos (x := -x) (y := -y) (by linarith)
  have e : -(⟨x, y⟩ : ℂ) = ⟨-x, -y⟩ := rfl
  rw [e, h2, neg_div_neg_eq] at h
  linarith

theorem arg_neg_neg {x y : ℝ} (hx : x < 0) (hy : y < 0) : Complex.arg ⟨x, y⟩ = Real.arctan (y / x) - Real.pi := by
  have h := Complex.arg_neg_eq_arg_add_pi_of_im_neg (x := ⟨x, y⟩) hy
  have h2 := arg_pos (x := -x) (y := -y) (by linarith)
  have e : -(⟨x, y⟩ : ℂ) = ⟨-x, -y⟩ := rfl
  rw [e, h2, neg_div_neg_eq] at h
  linarith

/-- adding an approximation of `pi` or its opposite `P`; `A` is the arc tangent, of the other sign -/
theorem add_pi (w : C.Big) {v v' : FV} {z c A P : ℝ} (hv : Val v z) (hr : Rep C.p C.emin z) (hv' : Val v' c) (hr' : Rep C.p C.emin c)
    (he : |z - A| ≤ 46 * C.u * |A| + (2 : ℝ) ^ C.emin) (c3 : |c - P| ≤ 3 * C.u * Real.pi + C.u / 100)
    (hA : |A + P| = Real.pi - |A|) (hA2 : |A| ≤ Real.pi / 2) :
    ∃ r, Val (C.add v v') r ∧ Rep C.p C.emin r ∧ |r| < (2 : ℝ) ^ C.emax ∧ |r - (A + P)| ≤ 64 * C.u * |A + P| := by
  have hu := u_pos (F := C)
  have hu8 := w.u_small
  have hM := big_max w
  have p1 := Real.pi_gt_three
  have p2 := Real.pi_lt_d2
  norm_num at p2
  have hη := NearR.eta_rel w
  have hη2 : C.u * (1 / 10 ^ 60) ≤ C.u / 1000 := by
    rw [div_eq_mul_one_div]
    exact mul_le_mul_of_nonneg_left (by norm_num) (le_of_lt hu)
  have hA0 := abs_nonneg A
  have hS : |z + c - (A + P)| ≤ 46 * C.u * |A| + C.u / 1000 + 3 * C.u * Real.pi + C.u / 100 := by
    rw [show z + c - (A + P) = (z - A) + (c - P) by ring]
    have := abs_add_le (z - A) (c - P)
    linarith
  have hX : Real.pi / 2 ≤ |A + P| := by linarith
  have hS2 : |z + c - (A + P)| ≤ 527 / 10 * C.u * |A + P| := by
    have a := mul_le_mul_of_nonneg_left (show |A| ≤ |A + P| by linarith) (show 0 ≤ 46 * C.u by positivity)
    have b := mul_le_mul_of_nonneg_left (show Real.pi ≤ 2 * |A + P| by linarith) (show 0 ≤ 3 * C.u by positivity)
    have c := mul_le_mul_of_nonneg_left (show 1 ≤ |A + P| by linarith) (show 0 ≤ C.u by positivity)
    linarith
  have hb : |z + c| ≤ 11 / 10 * |A + P| := by
    have a := abs_add_le (z + c - (A + P)) (A + P)
    rw [sub_add_cancel] at a
    have b := mul_le_mul_of_nonneg_right hu8 (show 0 ≤ |A + P| by linarith)
    linarith
  have hb2 := rnd_lt_emax (F := C) (x := z + c) (by linarith)
  refine ⟨C.rnd (z + c), add_val (F := C) hv hv' hb2, C.rnd_rep _, hb2, ?_⟩
  have e1 := rnd_add_rel (F := C) hr hr'
  have e2 := abs_add_le (C.rnd (z + c) - (z + c)) (z + c - (A + P))
  rw [sub_add_sub_cancel] at e2
  have e3 := mul_le_mul_of_nonneg_left hb (le_of_lt hu)
  have e4 : 0 ≤ C.u * |A + P| := mul_nonneg (le_of_lt hu) (by linarith)
  linarith

end MathAtan

end Sprout
