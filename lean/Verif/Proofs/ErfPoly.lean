import Mathlib.Data.Real.Basic
import Mathlib.Data.Nat.Factorial.Basic
import Mathlib.Algebra.BigOperators.Group.List.Basic
import Mathlib.Algebra.BigOperators.Intervals
import Mathlib.Analysis.SpecialFunctions.Trigonometric.Inverse
import Mathlib.Data.Nat.Cast.Field
import Mathlib.Tactic.Ring
import Mathlib.Tactic.Linarith
import Mathlib.Tactic.FieldSimp
import Mathlib.Tactic.Positivity

/-!
# Polynomials with integer coefficients, and their bounds by expansions in Chebyshev polynomials

For the accuracy of the error function. The lists are coefficients, that of the constant first.
-/

namespace Sprout.ErfPoly

/-- sum -/
def padd : List ℤ → List ℤ → List ℤ
  | [], q => q
  | p, [] => p
  | a :: p, b :: q => (a + b) :: padd p q
/-- multiple -/
def smul (c : ℤ) : List ℤ → List ℤ
  | [] => []
  | a :: p => c * a :: smul c p
/-- difference -/
def psub (p q : List ℤ) : List ℤ := padd p (smul (-1) q)
/-- product with `a + b y` -/
def mulLin (a b : ℤ) (p : List ℤ) : List ℤ := padd (smul a p) (0 :: smul b p)
/-- product -/
def pmul : List ℤ → List ℤ → List ℤ
  | [], _ => []
  | v :: p, q => padd (smul v q) (0 :: pmul p q)
/-- square -/
def psq (p : List ℤ) : List ℤ := pmul p p
/-- the polynomial at `(a + b y) / q`, multiplied by `q ^ length` -/
def comp (a b q : ℤ) : List ℤ → List ℤ
  | [] => []
  | v :: p => padd [q ^ (p.length + 1) * v] (mulLin a b (comp a b q p))
/-- sum of absolute values -/
def asum : List ℤ → ℕ
  | [] => 0
  | a :: p => a.natAbs + asum p
/-- the combination of Chebyshev polynomials, from two consecutive ones -/
def cheb : List ℤ → List ℤ → List ℤ → List ℤ
  | [], _, _ => []
  | d :: ds, t0, t1 => padd (smul d t0) (cheb ds t1 (psub (smul 2 (0 :: t1)) t0))
/-- the value -/
noncomputable def ev : List ℤ → ℝ → ℝ
  | [], _ => 0
  | a :: p, y => a + y * ev p y

theorem ev_padd (y : ℝ) : ∀ p q, ev (padd p q) y = ev p y + ev q y
  | [], q => by simp [padd, ev]
  | a :: p, [] => by simp [padd, ev]
  | a :: p, b :: q => by
    simp only [padd, ev, ev_padd y p q]
    push_cast
    ring

theorem ev_smul (c : ℤ) (y : ℝ) : ∀ p, ev (smul c p) y = c * ev p y
  | [] => by simp [smul, ev]
  | a :: p => by
    simp only [smul, ev, ev_smul c y p]
    push_cast
    ring

theorem ev_psub (p q : List ℤ) (y : ℝ) : ev (psub p q) y = ev p y - ev q y := by
  rw [psub, ev_padd, ev_smul]
  push_cast
  ring

theorem ev_mulLin (a b : ℤ) (p : List ℤ) (y : ℝ) : ev (mulLin a b p) y = (a + b * y) * ev p y := by
  rw [mulLin, ev_padd, ev_smul, ev, ev_smul]
  push_cast
  ring

theorem ev_pmul (y : ℝ) (q : List ℤ) : ∀ p, ev (pmul p q) y = ev p y * ev q y
  | [] => by simp [pmul, ev]
  | v :: p => by
    rw [pmul, ev_padd, ev_smul, ev, ev_pmul y q p, ev]
    push_cast
    ring

theorem ev_comp (a b q : ℤ) (hq : (q : ℝ) ≠ 0) (y : ℝ) :
    ∀ p, ev (comp a b q p) y = (q : ℝ) ^ p.length * ev p ((a + b * y) / q)
  | [] => by simp [comp, ev]
  | v :: p => by
    rw [comp, ev_padd, ev_mulLin, ev_comp a b q hq y p]
    simp only [ev, List.length_cons]
    push_cast
    rw [pow_succ]
    field_simp
    ring

theorem ev_abs (y : ℝ) (hy : |y| ≤ 1) : ∀ p, |ev p y| ≤ asum p
  | [] => by simp [ev, asum]
  | a :: p => by
    simp only [ev, asum]
    refine (abs_add_le _ _).trans ?_
    rw [abs_mul]
    have h1 := ev_abs y hy p
    have h2 : |y| * |ev p y| ≤ 1 * asum p := mul_le_mul hy h1 (abs_nonneg _) zero_le_one
    have h3 : |(a : ℝ)| = a.natAbs := by
      rw [Nat.cast_natAbs]
      simp
    rw [h3]
    push_cast at h2 ⊢
    linarith

theorem cheb_abs (θ : ℝ) : ∀ (ds t0 t1 : List ℤ) (n : ℕ), ev t0 (Real.cos θ) = Real.cos (n * θ) →
    ev t1 (Real.cos θ) = Real.cos ((n + 1 : ℕ) * θ) → |ev (cheb ds t0 t1) (Real.cos θ)| ≤ asum ds
  | [], t0, t1, n, _, _ => by simp [cheb, ev, asum]
  | d :: ds, t0, t1, n, h0, h1 => by
    rw [cheb, ev_padd, ev_smul, asum]
    refine (abs_add_le _ _).trans ?_
    have h2 : ev (psub (smul 2 (0 :: t1)) t0) (Real.cos θ) = Real.cos ((n + 1 + 1 : ℕ) * θ) := by
      rw [ev_psub, ev_smul, ev, h0, h1]
      have e1 : ((n + 1 + 1 : ℕ) : ℝ) * θ = (n + 1 : ℕ) * θ + θ := by push_cast; ring
      have e2 : (n : ℝ) * θ = (n + 1 : ℕ) * θ - θ := by push_cast; ring
      rw [e1, e2, Real.cos_add, Real.cos_sub]
      push_cast
      ring
    have h3 := cheb_abs θ ds t1 _ (n + 1) h1 h2
    have h4 : |(d : ℝ) * ev t0 (Real.cos θ)| ≤ d.natAbs := by
      rw [abs_mul, h0]
      have e : |(d : ℝ)| = d.natAbs := by
        rw [Nat.cast_natAbs]
        simp
      rw [e]
      exact mul_le_of_le_one_right (Nat.cast_nonneg _) (Real.abs_cos_le_one _)
    push_cast
    linarith

theorem cheb_bound (ds : List ℤ) (y : ℝ) (hy : |y| ≤ 1) : |ev (cheb ds [1] [0, 1]) y| ≤ asum ds := by
  obtain ⟨h1, h2⟩ := abs_le.mp hy
  rw [← Real.cos_arccos h1 h2]
  refine cheb_abs _ ds [1] [0, 1] 0 ?_ ?_
  · simp [ev]
  · simp [ev]

/-- the coefficients of the series of `e ^ -s`, integrated: `±L / (n! (2n + 1))` rounded down, from the term `n`, where `f` is `n!`. `L` is
taken odd: the kernel is slow with numbers that are multiples of a large power of two. -/
def tayFrom (L : ℕ) : ℕ → ℕ → ℤ → ℕ → List ℤ
  | _, _, _, 0 => []
  | n, f, sg, m + 1 => sg * ((L / (f * (2 * n + 1)) : ℕ) : ℤ) :: tayFrom L (n + 1) (f * (n + 1)) (-sg) m

/-- the series up to the term `N`, in units of `1 / L`, rounded -/
def tay (L N : ℕ) : List ℤ := tayFrom L 0 1 1 N

/-- the coefficients of `x p(x²)` -/
def odd : List ℤ → List ℤ
  | [] => []
  | a :: p => 0 :: a :: odd p

/-- the series -/
noncomputable def Q (N : ℕ) (s : ℝ) : ℝ := ∑ n ∈ Finset.range N, (-1) ^ n * s ^ n / (n.factorial * (2 * n + 1))

theorem tayFrom_length (L : ℕ) : ∀ m n f sg, (tayFrom L n f sg m).length = m
  | 0, _, _, _ => rfl
  | m + 1, n, f, sg => by simp [tayFrom, tayFrom_length L m]

theorem tay_length (L N : ℕ) : (tay L N).length = N := tayFrom_length L N 0 1 1

theorem tayFrom_ev (L : ℕ) (s : ℝ) (hs : 0 ≤ s) : ∀ m n,
    |s ^ n * ev (tayFrom L n n.factorial ((-1) ^ n) m) s -
      L * ∑ i ∈ Finset.Ico n (n + m), (-1) ^ i * s ^ i / (i.factorial * (2 * i + 1))| ≤ ∑ i ∈ Finset.Ico n (n + m), s ^ i
  | 0, n => by simp [tayFrom, ev]
  | m + 1, n => by
    have ih := tayFrom_ev L s hs m (n + 1)
    rw [tayFrom, ev]
    rw [show n.factorial * (n + 1) = (n + 1).factorial from by rw [Nat.factorial_succ, mul_comm],
      show -(-1 : ℤ) ^ n = (-1) ^ (n + 1) from by rw [pow_succ]; ring]
    rw [Finset.sum_eq_sum_Ico_succ_bot (by omega : n < n + (m + 1)) (fun i => (-1 : ℝ) ^ i * s ^ i / (i.factorial * (2 * i + 1))),
      Finset.sum_eq_sum_Ico_succ_bot (by omega : n < n + (m + 1)) (fun i => s ^ i), show n + (m + 1) = n + 1 + m from by omega]
    have hd : |(((L / (n.factorial * (2 * n + 1)) : ℕ) : ℝ)) - L / (n.factorial * (2 * n + 1))| ≤ 1 := by
      have h0 : (0 : ℝ) < n.factorial * (2 * n + 1) := by positivity
      have h1 := Nat.div_mul_le_self L (n.factorial * (2 * n + 1))
      have h2 := Nat.lt_div_mul_add (a := L) (b := n.factorial * (2 * n + 1)) (by positivity)
      have h1' : ((L / (n.factorial * (2 * n + 1)) : ℕ) : ℝ) * (n.factorial * (2 * n + 1)) ≤ L := by exact_mod_cast h1
      have h2' : (L : ℝ) < ((L / (n.factorial * (2 * n + 1)) : ℕ) : ℝ) * (n.factorial * (2 * n + 1)) + n.factorial * (2 * n + 1) := by
        exact_mod_cast h2
      rw [abs_le]
      constructor
      · rw [neg_le_sub_iff_le_add, div_le_iff₀ h0]
        nlinarith
      · have : ((L / (n.factorial * (2 * n + 1)) : ℕ) : ℝ) ≤ L / (n.factorial * (2 * n + 1)) := by rwa [le_div_iff₀ h0]
        linarith
    have e : s ^ n * (((((-1) ^ n * ((L / (n.factorial * (2 * n + 1)) : ℕ) : ℤ) : ℤ)) : ℝ) +
          s * ev (tayFrom L (n + 1) (n + 1).factorial ((-1) ^ (n + 1)) m) s) -
        L * ((-1) ^ n * s ^ n / (n.factorial * (2 * n + 1)) +
          ∑ i ∈ Finset.Ico (n + 1) (n + 1 + m), (-1) ^ i * s ^ i / (i.factorial * (2 * i + 1))) =
        (-1) ^ n * s ^ n * (((L / (n.factorial * (2 * n + 1)) : ℕ) : ℝ) - L / (n.factorial * (2 * n + 1))) +
        (s ^ (n + 1) * ev (tayFrom L (n + 1) (n + 1).factorial ((-1) ^ (n + 1)) m) s -
          L * ∑ i ∈ Finset.Ico (n + 1) (n + 1 + m), (-1) ^ i * s ^ i / (i.factorial * (2 * i + 1))) := by
      rw [Int.cast_mul, Int.cast_natCast]
      push_cast
      ring
    rw [e]
    refine (abs_add_le _ _).trans (add_le_add ?_ ih)
    rw [abs_mul, abs_mul, abs_pow, abs_neg, abs_one, one_pow, one_mul, abs_of_nonneg (pow_nonneg hs n)]
    exact mul_le_of_le_one_right (pow_nonneg hs n) hd

theorem tay_ev (L N : ℕ) (hL : 0 < L) (s S : ℝ) (hs : 0 ≤ s) (hS : s ≤ S) (h1 : 1 ≤ S) : |ev (tay L N) s / L - Q N s| ≤ N * S ^ N / L := by
  have := tayFrom_ev L s hs N 0
  rw [pow_zero, one_mul, Nat.zero_add, pow_zero, Nat.factorial_zero, ← Finset.range_eq_Ico] at this
  have hLr : (0 : ℝ) < L := by exact_mod_cast hL
  have h2 : ∑ i ∈ Finset.range N, s ^ i ≤ N * S ^ N := by
    have : ∑ i ∈ Finset.range N, s ^ i ≤ ∑ _i ∈ Finset.range N, S ^ N := by
      apply Finset.sum_le_sum
      intro i hi
      rw [Finset.mem_range] at hi
      exact (pow_le_pow_left₀ hs hS i).trans (pow_le_pow_right₀ h1 hi.le)
    simpa using this
  have e : ev (tay L N) s / L - Q N s = (ev (tay L N) s - L * Q N s) / L := by
    field_simp
  rw [e, abs_div, abs_of_pos hLr]
  exact div_le_div_of_nonneg_right ((show _ ≤ _ from this).trans h2) hLr.le

theorem odd_ev (x : ℝ) : ∀ p, ev (odd p) x = x * ev p (x * x)
  | [] => by simp [odd, ev]
  | a :: p => by
    simp only [odd, ev, odd_ev x p]
    push_cast
    ring

theorem odd_length : ∀ p, (odd p).length = 2 * p.length
  | [] => rfl
  | a :: p => by simp [odd, odd_length p]; omega

/-- `2 / √π`, in units of `10 ^ -25` -/
def cI : ℤ := 11283791670955125738961589

/-- the scaled difference on the interval from `(a - b) / q` to `(a + b) / q` -/
def gA (k a b q : ℤ) (p : List ℤ) (L n : ℕ) : List ℤ :=
  psub (smul (10 ^ 25 * L * q ^ (n - 13)) (comp a b q p)) (smul (cI * 10 ^ 20) (comp (a + k * q) b q (tay L n)))

/-- the check of a polynomial `p` (in units of `10 ^ -20`) for arguments below 2.2: with the expansion `ds` (in units of `10 ^ -30`) it is
within `E` (in these units) of the series -/
def checkA (k a b q : ℤ) (p : List ℤ) (L n : ℕ) (ds : List ℤ) (E : ℕ) : Bool :=
  let M : ℕ := 10 ^ 45 * L * q.toNat ^ n
  decide (asum (psub (smul (10 ^ 30) (gA k a b q p L n)) (smul M (cheb ds [1] [0, 1]))) + M * asum ds ≤ M * E)

/-- the scaled difference of `1 - p ^ 16` and the series -/
def gB (k a b q : ℤ) (p : List ℤ) (L n : ℕ) : List ℤ :=
  psub (psub [10 ^ 25 * 10 ^ 320 * L * q ^ (2 * n + 208)]
    (smul (10 ^ 25 * L * q ^ (2 * n)) (psq (psq (psq (psq (comp a b q p)))))))
    (smul (cI * 10 ^ 320 * q ^ 208) (comp (a + k * q) b q (odd (tay L n))))

/-- the check for arguments above 2.2 -/
def checkB (k a b q : ℤ) (p : List ℤ) (L n : ℕ) (ds : List ℤ) (E : ℕ) : Bool :=
  let M : ℕ := 10 ^ 25 * 10 ^ 320 * L * q.toNat ^ (2 * n + 208)
  decide (asum (psub (smul (10 ^ 30) (gB k a b q p L n)) (smul M (cheb ds [1] [0, 1]))) + M * asum ds ≤ M * E)

theorem bound_of_check (g ds : List ℤ) (M E : ℕ) (hM : 0 < M) (d y : ℝ) (hy : |y| ≤ 1) (hg : ev g y = M * d)
    (h : asum (psub (smul (10 ^ 30) g) (smul M (cheb ds [1] [0, 1]))) + M * asum ds ≤ M * E) : |d| ≤ (E : ℝ) / 10 ^ 30 := by
  have h1 := ev_abs y hy (psub (smul (10 ^ 30) g) (smul M (cheb ds [1] [0, 1])))
  have h2 := cheb_bound ds y hy
  rw [ev_psub, ev_smul, ev_smul, hg] at h1
  have h3 : ((asum (psub (smul (10 ^ 30) g) (smul M (cheb ds [1] [0, 1]))) : ℕ) : ℝ) + M * asum ds ≤ M * E := by exact_mod_cast h
  have hMr : (0 : ℝ) < M := by exact_mod_cast hM
  have h4 : |(10 : ℝ) ^ 30 * (M * d)| ≤ M * E := by
    have e : (10 : ℝ) ^ 30 * (M * d) = (((10 : ℤ) ^ 30 : ℤ) * (M * d) - ((M : ℤ) : ℝ) * ev (cheb ds [1] [0, 1]) y) +
        M * ev (cheb ds [1] [0, 1]) y := by
      push_cast
      ring
    rw [e]
    refine (abs_add_le _ _).trans ?_
    have h5 : |(M : ℝ) * ev (cheb ds [1] [0, 1]) y| ≤ M * asum ds := by
      rw [abs_mul, abs_of_pos hMr]
      exact mul_le_mul_of_nonneg_left h2 hMr.le
    linarith
  rw [abs_mul, abs_mul, abs_of_pos hMr, abs_of_pos (by positivity)] at h4
  rw [le_div_iff₀ (by positivity)]
  have : (M : ℝ) * (|d| * 10 ^ 30) ≤ M * E := by linarith
  exact le_of_mul_le_mul_left this hMr

theorem checkA_sound (k a b : ℤ) (q : ℕ) (hq : 0 < q) (p : List ℤ) (hp : p.length = 13) (L : ℕ) (hL : 0 < L) (n : ℕ) (hn : 13 ≤ n) (ds : List ℤ) (E : ℕ)
    (h : checkA k a b q p L n ds E = true) (y : ℝ) (hy : |y| ≤ 1) :
    |ev p ((a + b * y) / q) / 10 ^ 20 - cI / 10 ^ 25 * (ev (tay L n) (k + (a + b * y) / q) / L)| ≤ (E : ℝ) / 10 ^ 30 := by
  simp only [checkA, Int.toNat_natCast, decide_eq_true_eq] at h
  have hqr : ((q : ℤ) : ℝ) ≠ 0 := by
    have : (q : ℝ) ≠ 0 := by exact_mod_cast hq.ne'
    exact_mod_cast this
  have hLr : (L : ℝ) ≠ 0 := by exact_mod_cast hL.ne'
  have hqr' : (q : ℝ) ≠ 0 := by exact_mod_cast hq.ne'
  refine bound_of_check _ ds _ E (by positivity) _ y hy ?_ h
  have e1 : (((a + k * q : ℤ) : ℝ) + b * y) / ((q : ℤ) : ℝ) = k + (a + b * y) / q := by
    push_cast
    field_simp
    ring
  rw [gA, ev_psub, ev_smul, ev_smul, ev_comp _ _ _ hqr, ev_comp _ _ _ hqr, e1, hp, tay_length]
  obtain ⟨m, rfl⟩ : ∃ m, n = m + 13 := ⟨n - 13, by omega⟩
  push_cast
  rw [pow_add]
  field_simp
  ring

theorem checkB_sound (k a b : ℤ) (q : ℕ) (hq : 0 < q) (p : List ℤ) (hp : p.length = 13) (L : ℕ) (hL : 0 < L) (n : ℕ) (ds : List ℤ) (E : ℕ)
    (h : checkB k a b q p L n ds E = true) (y : ℝ) (hy : |y| ≤ 1) :
    |1 - (ev p ((a + b * y) / q) / 10 ^ 20) ^ 16 - cI / 10 ^ 25 * ((k + (a + b * y) / q) * (ev (tay L n) ((k + (a + b * y) / q) * (k + (a + b * y) / q)) / L))|
      ≤ (E : ℝ) / 10 ^ 30 := by
  simp only [checkB, Int.toNat_natCast, decide_eq_true_eq] at h
  have hqr : ((q : ℤ) : ℝ) ≠ 0 := by
    have : (q : ℝ) ≠ 0 := by exact_mod_cast hq.ne'
    exact_mod_cast this
  have hLr : (L : ℝ) ≠ 0 := by exact_mod_cast hL.ne'
  have hqr' : (q : ℝ) ≠ 0 := by exact_mod_cast hq.ne'
  refine bound_of_check _ ds _ E (by positivity) _ y hy ?_ h
  have e1 : (((a + k * q : ℤ) : ℝ) + b * y) / ((q : ℤ) : ℝ) = k + (a + b * y) / q := by
    push_cast
    field_simp
    ring
  rw [gB, ev_psub, ev_psub, ev_smul, ev_smul, psq, psq, psq, psq, ev_pmul, ev_pmul, ev_pmul, ev_pmul, ev_comp _ _ _ hqr,
    ev_comp _ _ _ hqr, e1, odd_ev, hp, odd_length, tay_length]
  simp only [ev]
  generalize ev p _ = A
  generalize ev (tay L n) _ = B
  generalize (k : ℝ) + (a + b * y) / q = z
  push_cast
  rw [pow_add, div_pow, ← pow_mul, show 20 * 16 = 320 from rfl]
  have hT : (10 : ℝ) ^ 320 ≠ 0 := by positivity
  generalize (10 : ℝ) ^ 320 = T at hT ⊢
  field_simp
  ring

end Sprout.ErfPoly
