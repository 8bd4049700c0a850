import Verif.Proofs.Series
import Verif.Proofs.MathSqrt
import Verif.Props.C92

/-! # Powers, and the terms of power series -/

namespace Sprout

open Classical FV Fmt

theorem one_add_pow_le {u : ℝ} (hu : 0 ≤ u) (n : ℕ) (h : n * u ≤ 1) : (1 + u) ^ n ≤ 1 + n * u + (n * u) ^ 2 := by
  induction n with
  | zero => simp
  | succ n ih =>
    push_cast at h ⊢
    have h1 : n * u ≤ 1 := by nlinarith
    have hn : (0 : ℝ) ≤ n := by positivity
    rw [pow_succ]
    have h2 := mul_le_mul_of_nonneg_right (ih h1) (show 0 ≤ 1 + u by linarith)
    have h3 : n * u * (n * u * u) ≤ 1 * (n * u * u) := mul_le_mul_of_nonneg_right h1 (by positivity)
    have h4 : 0 ≤ u * u := mul_nonneg hu hu
    nlinarith

/-- the formats in which the functions are computed: `double` and better -/
structure Fmt.Big (C : Fmt) : Prop where
  p53 : 53 ≤ C.p
  p113 : C.p ≤ 113
  emin : C.emin ≤ -1074
  emax : 1024 ≤ C.emax

theorem big_double : Fmt.double.Big := ⟨by decide, by decide, by decide, by decide⟩
theorem big_extended : Fmt.extended.Big := ⟨by decide, by decide, by decide, by decide⟩
theorem big_quad : Fmt.quad.Big := ⟨by decide, by decide, by decide, by decide⟩

namespace Fmt.Big

variable {C : Fmt} (w : C.Big)
include w

theorem wide : C.Wide := ⟨by have := w.p53; omega, by have := w.p113; have := w.emin; omega,
  by have := w.p113; have := w.emax; omega⟩

theorem u_le : C.u ≤ (2 : ℝ) ^ (-53 : ℤ) := by
  unfold u
  exact zpow_le_zpow_right₀ (by norm_num) (by have := w.p53; omega)

theorem u_ge : (2 : ℝ) ^ (-113 : ℤ) ≤ C.u := by
  unfold u
  exact zpow_le_zpow_right₀ (by norm_num) (by have := w.p113; omega)

theorem u_small : C.u ≤ 1 / 9007199254740992 := by
  have := w.u_le
  norm_num at this
  linarith

theorem eta_le : (2 : ℝ) ^ C.emin ≤ (2 : ℝ) ^ (-1074 : ℤ) := zpow_le_zpow_right₀ (by norm_num) w.emin

theorem emax_ge : (2 : ℝ) ^ (1023 : ℤ) ≤ (2 : ℝ) ^ (C.emax - 1) :=
  zpow_le_zpow_right₀ (by norm_num) (by have := w.emax; omega)

theorem eta_small : (2 : ℝ) ^ C.emin ≤ 1 / 1000000000000 := by
  refine le_trans w.eta_le ?_
  have : (2 : ℝ) ^ (-1074 : ℤ) ≤ (2 : ℝ) ^ (-40 : ℤ) := zpow_le_zpow_right₀ (by norm_num) (by norm_num)
  norm_num at this ⊢
  linarith

theorem one_add_le {n : ℕ} (h : n ≤ 1024) : (1 + C.u) ^ n ≤ 1 + 1 / 1000000 := by
  have h1 := w.u_small
  have h2 := u_pos (F := C)
  have hn : (n : ℝ) ≤ 1024 := by exact_mod_cast h
  have hnu : n * C.u ≤ 1 / 8000000000000 := by nlinarith
  have hnu0 : 0 ≤ n * C.u := by positivity
  have := one_add_pow_le (le_of_lt h2) n (by linarith)
  nlinarith

end Fmt.Big

namespace MathExp

open MathScale MathTables

variable {C : Fmt}

/-- the bound of the power `x ^ n` -/
noncomputable def powW (C : Fmt) (x : ℝ) (n : ℕ) : ℝ :=
  (1 + C.u) ^ (n - 1) * |x| ^ n + n ^ 2 * ((2 : ℝ) ^ C.emin * max 1 |x| ^ n)

theorem powW_le (w : C.Big) (x : ℝ) {n : ℕ} (h1 : n ≤ 512) : powW C x n ≤ 2 * max 1 |x| ^ n := by
  unfold powW
  have hX : |x| ^ n ≤ max 1 |x| ^ n := pow_le_pow_left₀ (abs_nonneg _) (le_max_right _ _) n
  have hX0 : 0 < max 1 |x| ^ n := by positivity
  have hg := w.one_add_le (show n - 1 ≤ 1024 by omega)
  have hη := w.eta_small
  have hη0 : (0 : ℝ) < (2 : ℝ) ^ C.emin := by positivity
  have hu := u_pos (F := C)
  have hn : (n : ℝ) ≤ 512 := by exact_mod_cast h1
  have hn2 : (n : ℝ) ^ 2 ≤ 262144 := by nlinarith [show (0 : ℝ) ≤ n by positivity]
  have i1 : (1 + C.u) ^ (n - 1) * |x| ^ n ≤ (1 + 1 / 1000000) * max 1 |x| ^ n :=
    mul_le_mul hg hX (by positivity) (by norm_num)
  have i2 : (n : ℝ) ^ 2 * ((2 : ℝ) ^ C.emin * max 1 |x| ^ n) ≤ 262144 * (1 / 1000000000000 * max 1 |x| ^ n) :=
    mul_le_mul hn2 (mul_le_mul_of_nonneg_right hη (le_of_lt hX0)) (by positivity) (by norm_num)
  nlinarith

theorem powW_sq (w : C.Big) (x : ℝ) {m : ℕ} (hm1 : 1 ≤ m) (hm2 : m ≤ 256) :
    (1 + C.u) * (powW C x m * powW C x m) + (2 : ℝ) ^ C.emin / 2 ≤
      (1 + C.u) ^ (2 * m - 1) * |x| ^ (2 * m) + (3 * m ^ 2 + 1 / 2) * ((2 : ℝ) ^ C.emin * max 1 |x| ^ (2 * m)) := by
  have hu := u_pos (F := C)
  have hu8 := w.u_small
  have hη := w.eta_small
  have hη0 : (0 : ℝ) < (2 : ℝ) ^ C.emin := by positivity
  have hX1 : (1 : ℝ) ≤ max 1 |x| := le_max_left _ _
  have hm1' : (1 : ℝ) ≤ m := by exact_mod_cast hm1
  have hm2' : (m : ℝ) ≤ 256 := by exact_mod_cast hm2
  have hg := w.one_add_le (show m - 1 ≤ 1024 by omega)
  have hg1 : (1 : ℝ) ≤ (1 + C.u) ^ (m - 1) := one_le_pow₀ (by linarith)
  have e1 : (1 + C.u) ^ (2 * m - 1) = (1 + C.u) * ((1 + C.u) ^ (m - 1) * (1 + C.u) ^ (m - 1)) := by
    rw [← pow_add, ← pow_succ']
    congr 1
    omega
  have e2 : |x| ^ (2 * m) = |x| ^ m * |x| ^ m := by rw [two_mul, pow_add]
  have e3 : max 1 |x| ^ (2 * m) = max 1 |x| ^ m * max 1 |x| ^ m := by rw [two_mul, pow_add]
  unfold powW
  rw [e1, e2, e3]
  have hX : |x| ^ m ≤ max 1 |x| ^ m := pow_le_pow_left₀ (abs_nonneg _) (le_max_right _ _) m
  have hXp : 1 ≤ max 1 |x| ^ m := one_le_pow₀ hX1
  have hx0 : 0 ≤ |x| ^ m := by positivity
  generalize (1 + C.u) ^ (m - 1) = g at *
  generalize max 1 |x| ^ m = X at *
  generalize |x| ^ m = a at *
  generalize (2 : ℝ) ^ C.emin = η at *
  generalize C.u = u at *
  have j1 : a * X ≤ X * X := mul_le_mul_of_nonneg_right hX (by linarith)
  have j2 : g * (a * X) ≤ (1 + 1 / 1000000) * (X * X) := mul_le_mul hg j1 (by positivity) (by norm_num)
  have hXX : 1 ≤ X * X := by nlinarith
  have hmm : (m : ℝ) ^ 2 ≤ 65536 := by nlinarith
  have hmm1 : (1 : ℝ) ≤ (m : ℝ) ^ 2 := by nlinarith
  have j3 : (m : ℝ) ^ 2 * η ≤ 1 / 1000000 := by nlinarith
  have j4 : (m : ℝ) ^ 2 * η * (X * X) ≤ 1 / 1000000 * (X * X) := mul_le_mul_of_nonneg_right j3 (by linarith)
  have hmη : 0 ≤ (m : ℝ) ^ 2 * η := by positivity
  have j5 : (2 * (g * (a * X)) + (m : ℝ) ^ 2 * η * (X * X)) ≤ (2 + 3 / 1000000) * (X * X) := by linarith
  have j6 : (1 + u) * (2 * (g * (a * X)) + (m : ℝ) ^ 2 * η * (X * X)) ≤ (1 + 1 / 1000000) * ((2 + 3 / 1000000) * (X * X)) :=
    mul_le_mul (by linarith) j5 (by positivity) (by norm_num)
  have j7 := mul_le_mul_of_nonneg_left j6 hmη
  have j8 : 0 ≤ (m : ℝ) ^ 2 * η * (X * X) := mul_nonneg hmη (by linarith)
  have j9 : η ≤ η * (X * X) := le_mul_of_one_le_right (le_of_lt hη0) hXX
  have e4 : (1 + u) * ((g * a + (m : ℝ) ^ 2 * (η * X)) * (g * a + (m : ℝ) ^ 2 * (η * X))) =
    (1 + u) * (g * g) * (a * a) + (m : ℝ) ^ 2 * η * ((1 + u) * (2 * (g * (a * X)) + (m : ℝ) ^ 2 * η * (X * X))) := by ring
  rw [e4]
  nlinarith

theorem powW_odd (w : C.Big) (x : ℝ) {m : ℕ} (hm1 : 1 ≤ m) (hm2 : m ≤ 256) :
    (1 + C.u) * (|x| * ((1 + C.u) * (powW C x m * powW C x m) + (2 : ℝ) ^ C.emin / 2)) + (2 : ℝ) ^ C.emin / 2 ≤
      powW C x (2 * m + 1) := by
  have hu := u_pos (F := C)
  have hu8 := w.u_small
  have hη := w.eta_small
  have hη0 : (0 : ℝ) < (2 : ℝ) ^ C.emin := by positivity
  have hX1 : (1 : ℝ) ≤ max 1 |x| := le_max_left _ _
  have hm1' : (1 : ℝ) ≤ m := by exact_mod_cast hm1
  have hm2' : (m : ℝ) ≤ 256 := by exact_mod_cast hm2
  have sqW := powW_sq w x hm1 hm2
  have k1 := mul_le_mul_of_nonneg_left sqW (show 0 ≤ (1 + C.u) * |x| by positivity)
  refine le_trans (show _ ≤ (1 + C.u) * |x| * ((1 + C.u) ^ (2 * m - 1) * |x| ^ (2 * m) +
    (3 * m ^ 2 + 1 / 2) * ((2 : ℝ) ^ C.emin * max 1 |x| ^ (2 * m))) + (2 : ℝ) ^ C.emin / 2 by linarith) ?_
  unfold powW
  have e1 : (1 + C.u) ^ (2 * m + 1 - 1) = (1 + C.u) * (1 + C.u) ^ (2 * m - 1) := by
    rw [← pow_succ']
    congr 1
    omega
  rw [e1, pow_succ |x|, pow_succ (max 1 |x|)]
  push_cast
  have hXp : 1 ≤ max 1 |x| ^ (2 * m) := one_le_pow₀ hX1
  have hx1 : |x| ≤ max 1 |x| := le_max_right _ _
  have hx0 := abs_nonneg x
  generalize max 1 |x| ^ (2 * m) = X at *
  generalize max 1 |x| = M at *
  have q1 : |x| * ((2 : ℝ) ^ C.emin * X) ≤ M * ((2 : ℝ) ^ C.emin * X) := mul_le_mul_of_nonneg_right hx1 (by positivity)
  have q2 : (1 + C.u) * (|x| * ((2 : ℝ) ^ C.emin * X)) ≤ (1 + 1 / 1000) * (M * ((2 : ℝ) ^ C.emin * X)) :=
    mul_le_mul (by linarith) q1 (by positivity) (by norm_num)
  have q3 := mul_le_mul_of_nonneg_left q2 (show (0 : ℝ) ≤ 3 * m ^ 2 + 1 / 2 by positivity)
  have q4 : (2 : ℝ) ^ C.emin ≤ M * ((2 : ℝ) ^ C.emin * X) := by
    calc (2 : ℝ) ^ C.emin = 1 * ((2 : ℝ) ^ C.emin * 1) := by ring
      _ ≤ M * ((2 : ℝ) ^ C.emin * X) := mul_le_mul hX1 (mul_le_mul_of_nonneg_left hXp (le_of_lt hη0)) (by positivity) (by linarith)
  have q5 : 0 ≤ M * ((2 : ℝ) ^ C.emin * X) := by positivity
  have q6 : (3 * (m : ℝ) ^ 2 + 1 / 2) * ((1 + 1 / 1000) * (M * ((2 : ℝ) ^ C.emin * X))) + M * ((2 : ℝ) ^ C.emin * X) / 2 ≤
      (2 * (m : ℝ) + 1) ^ 2 * (M * ((2 : ℝ) ^ C.emin * X)) := by
    have : (3 * (m : ℝ) ^ 2 + 1 / 2) * (1 + 1 / 1000) + 1 / 2 ≤ (2 * (m : ℝ) + 1) ^ 2 := by nlinarith
    have := mul_le_mul_of_nonneg_right this q5
    linarith
  nlinarith

theorem powNImpl_near (w : C.Big) {v : FV} {x : ℝ} (hv : Val v x) (hx : Rep C.p C.emin x) (n : ℕ) : 1 ≤ n → n ≤ 512 →
    2 * max 1 |x| ^ n ≤ (2 : ℝ) ^ (C.emax - 1) →
    ∃ r, powNImpl C v n = some r ∧ Near C r (x ^ n) (|x| ^ n) (powW C x n) := by
  induction n using Nat.strong_induction_on with
  | _ n ih =>
    intro h1 h2 hb
    have hu := u_pos (F := C)
    have hu8 := w.u_small
    have hη := w.eta_small
    have hη0 : (0 : ℝ) < (2 : ℝ) ^ C.emin := by positivity
    have hX1 : (1 : ℝ) ≤ max 1 |x| := le_max_left _ _
    rw [powNImpl, if_neg (by omega)]
    by_cases h3 : n = 1
    · rw [if_pos h3]
      refine ⟨v, rfl, ?_⟩
      subst h3
      have := Near.exact (A := |x|) hv hx (le_refl _)
      simp only [pow_one]
      refine this.mono ?_
      unfold powW
      simp only [le_refl, Nat.sub_self, pow_zero, one_mul, pow_one]
      have : 0 ≤ ((1 : ℕ) : ℝ) ^ 2 * ((2 : ℝ) ^ C.emin * max 1 |x|) := by positivity
      linarith
    · rw [if_neg h3]
      obtain ⟨m, hm⟩ : ∃ m, m = n / 2 := ⟨_, rfl⟩
      rw [← hm]
      have hXm : max 1 |x| ^ m ≤ max 1 |x| ^ n := pow_le_pow_right₀ hX1 (by omega)
      obtain ⟨r, r1, r2⟩ := ih m (by omega) (by omega) (by omega) (by linarith)
      have hm1 : 1 ≤ m := by omega
      have hm1' : (1 : ℝ) ≤ m := by exact_mod_cast hm1
      have hm2' : (m : ℝ) ≤ 256 := by exact_mod_cast (show m ≤ 256 by omega)
      -- the square
      have hg := w.one_add_le (show m - 1 ≤ 1024 by omega)
      have hg1 : (1 : ℝ) ≤ (1 + C.u) ^ (m - 1) := one_le_pow₀ (by linarith)
      have sqW := powW_sq w x hm1 (by omega : m ≤ 256)
      have he : ∀ k, k ≤ n → 2 * max 1 |x| ^ k ≤ (2 : ℝ) ^ (C.emax - 1) := fun k hk => by
        have : max 1 |x| ^ k ≤ max 1 |x| ^ n := pow_le_pow_right₀ hX1 hk
        linarith
      have hpos : 0 < (2 : ℝ) ^ C.emin * max 1 |x| ^ (2 * m) := by positivity
      have sqW' : (1 + C.u) * (powW C x m * powW C x m) + (2 : ℝ) ^ C.emin / 2 ≤ powW C x (2 * m) := by
        refine le_trans sqW ?_
        unfold powW
        push_cast
        have q1 : 3 * (m : ℝ) ^ 2 + 1 / 2 ≤ (2 * (m : ℝ)) ^ 2 := by nlinarith
        have := mul_le_mul_of_nonneg_right q1 (le_of_lt hpos)
        linarith
      have hs := r2.mul r2 (le_trans sqW' (le_trans (powW_le w x (by omega)) (he _ (by omega))))
      by_cases h4 : n % 2 = 1
      · rw [if_pos h4, r1]
        have hn : n = 2 * m + 1 := by omega
        refine ⟨_, rfl, ?_⟩
        have hvx := Near.exact (A := |x|) hv hx (le_refl _)
        have oddW : (1 + C.u) * (|x| * ((1 + C.u) * (powW C x m * powW C x m) + (2 : ℝ) ^ C.emin / 2)) + (2 : ℝ) ^ C.emin / 2 ≤
            powW C x n := by rw [hn]; exact powW_odd w x hm1 (by omega)
        have := hvx.mul hs (le_trans oddW (le_trans (powW_le w x (by omega)) (he _ (by omega))))
        have e2 : x * (x ^ m * x ^ m) = x ^ n := by rw [hn, pow_succ, two_mul, pow_add]; ring
        have e3 : |x| * (|x| ^ m * |x| ^ m) = |x| ^ n := by rw [hn, pow_succ, two_mul, pow_add]; ring
        rw [e2, e3] at this
        exact this.mono oddW
      · rw [if_neg h4, r1]
        have hn : n = 2 * m := by omega
        refine ⟨_, rfl, ?_⟩
        have e2 : x ^ m * x ^ m = x ^ n := by rw [hn, two_mul, pow_add]
        have e3 : |x| ^ m * |x| ^ m = |x| ^ n := by rw [hn, two_mul, pow_add]
        rw [e2, e3] at hs
        rw [hn] at hs ⊢
        exact hs.mono sqW'

end MathExp

end Sprout
