import Verif.Proofs.MathPow
import Mathlib.Analysis.Complex.Exponential

/-! # The exponential series -/

namespace Sprout

open Classical FV Fmt

namespace MathExp

open MathScale MathTables

variable {C : Fmt} {t : FloatTy}

theorem limit_big (w : C.Big) (hf : HasFormat C t) : t.limit = 170 := by
  cases t with
  | float => have := hf.1; have := w.p53; omega
  | double => rfl
  | longDouble => rfl

theorem fact_near (w : C.Big) (hf : HasFormat C t) {n : ℕ} (hn : n ≤ 170) :
    ∃ v, uncheckedFactorial C t n = some v ∧ Near C v n.factorial n.factorial ((1 + C.u) * n.factorial) := by
  have hl := limit_big w hf
  obtain ⟨h1, h2⟩ := (C92_factorial_float C t hf n).1 (by omega)
  unfold factorial at h1
  rw [if_pos (by omega)] at h1
  have hp : (1 : ℝ) ≤ n.factorial := by exact_mod_cast Nat.factorial_pos n
  have hr : 1 ≤ C.rnd n.factorial := le_rnd hp C.rep_one
  refine ⟨_, h1, C.rnd n.factorial, Val.num (by linarith), C.rnd_rep _, by rw [abs_of_nonneg (by linarith)], ?_⟩
  have := rnd_rel (F := C) (x := n.factorial) (by
    rw [abs_of_nonneg (by linarith)]
    refine le_trans ?_ hp
    have := w.wide.emin
    have : (2 : ℝ) ^ (C.emin + C.p - 1) ≤ (2 : ℝ) ^ (0 : ℤ) := zpow_le_zpow_right₀ (by norm_num) (by omega)
    simpa using this)
  rw [abs_of_nonneg (show (0 : ℝ) ≤ n.factorial by linarith)] at this
  linarith

/-- quotient by a factorial -/
theorem div_fact_near (w : C.Big) (hf : HasFormat C t) {n : ℕ} (hn : n ≤ 170) {v : FV} {a A W : ℝ} (h : Near C v a A W)
    (hb : (1 + C.u) ^ 3 * (W / n.factorial) + (2 : ℝ) ^ C.emin / 2 ≤ (2 : ℝ) ^ (C.emax - 1)) :
    ∃ q, (uncheckedFactorial C t n).map (fun f => C.div v f) = some q ∧
      Near C q (a / n.factorial) (A / n.factorial) ((1 + C.u) ^ 3 * (W / n.factorial) + (2 : ℝ) ^ C.emin / 2) := by
  obtain ⟨f, h1, h2⟩ := fact_near w hf hn
  have hu := u_pos (F := C)
  have hu8 := w.u_small
  have hp : (1 : ℝ) ≤ n.factorial := by exact_mod_cast Nat.factorial_pos n
  have hW0 : 0 ≤ W := le_trans h.AW.1 h.AW.2
  have hle : (1 + C.u) * (W / (2 * n.factorial - (1 + C.u) * n.factorial)) ≤ (1 + C.u) ^ 3 * (W / n.factorial) := by
    have e : (2 * (n.factorial : ℝ) - (1 + C.u) * n.factorial) = (1 - C.u) * n.factorial := by ring
    rw [e, mul_comm (1 - C.u), ← div_div, pow_succ' _ 2, mul_assoc]
    refine mul_le_mul_of_nonneg_left ?_ (by linarith)
    rw [div_le_iff₀ (by linarith)]
    have h3 : 1 ≤ (1 + C.u) ^ 2 * (1 - C.u) := by
      have h4 : C.u * C.u ≤ C.u * (1 / 4) := mul_le_mul_of_nonneg_left (by linarith) (le_of_lt hu)
      have h5 : C.u * C.u * C.u ≤ C.u * C.u * 1 := mul_le_mul_of_nonneg_left (by linarith) (mul_nonneg (le_of_lt hu) (le_of_lt hu))
      nlinarith
    have h4 : 0 ≤ W / n.factorial := by positivity
    calc W / n.factorial = 1 * (W / n.factorial) := by ring
      _ ≤ ((1 + C.u) ^ 2 * (1 - C.u)) * (W / n.factorial) := mul_le_mul_of_nonneg_right h3 h4
      _ = _ := by ring
  refine ⟨C.div v f, by rw [h1]; rfl, ?_⟩
  exact (h.div h2 (by linarith) (by nlinarith) (by linarith)).mono (by linarith)

/-- bound of a term -/
noncomputable def termW (C : Fmt) (x : ℝ) (n : ℕ) : ℝ :=
  (1 + C.u) ^ (n + 2) * (|x| ^ n / n.factorial) + 2 * (n ^ 2 * ((2 : ℝ) ^ C.emin * max 1 |x| ^ n))

theorem termW_ge (w : C.Big) (x : ℝ) {n : ℕ} (h1 : 1 ≤ n) (k : ℕ) (hk : 1 ≤ k) :
    (1 + C.u) ^ 3 * (powW C x n / k) + (2 : ℝ) ^ C.emin / 2 ≤
      (1 + C.u) ^ (n + 2) * (|x| ^ n / k) + 2 * (n ^ 2 * ((2 : ℝ) ^ C.emin * max 1 |x| ^ n)) := by
  have hu := u_pos (F := C)
  have hη0 : (0 : ℝ) < (2 : ℝ) ^ C.emin := by positivity
  have hX1 : (1 : ℝ) ≤ max 1 |x| := le_max_left _ _
  have hXn : (1 : ℝ) ≤ max 1 |x| ^ n := one_le_pow₀ hX1
  have hn : (1 : ℝ) ≤ n := by exact_mod_cast h1
  have hk' : (1 : ℝ) ≤ k := by exact_mod_cast hk
  have hg := w.one_add_le (show 3 ≤ 1024 by norm_num)
  unfold powW
  have e : (1 + C.u) ^ (n + 2) = (1 + C.u) ^ 3 * (1 + C.u) ^ (n - 1) := by
    rw [← pow_add]
    congr 1
    omega
  rw [e, add_div, mul_add]
  have q : 0 ≤ (n : ℝ) ^ 2 * ((2 : ℝ) ^ C.emin * max 1 |x| ^ n) := by positivity
  have h2 : (n : ℝ) ^ 2 * ((2 : ℝ) ^ C.emin * max 1 |x| ^ n) / k ≤ (n : ℝ) ^ 2 * ((2 : ℝ) ^ C.emin * max 1 |x| ^ n) :=
    div_le_self q hk'
  have h3 : (1 + C.u) ^ 3 * ((n : ℝ) ^ 2 * ((2 : ℝ) ^ C.emin * max 1 |x| ^ n) / k) ≤
      (1 + 1 / 1000000) * ((n : ℝ) ^ 2 * ((2 : ℝ) ^ C.emin * max 1 |x| ^ n)) :=
    mul_le_mul hg h2 (by positivity) (by norm_num)
  have h4 : (2 : ℝ) ^ C.emin ≤ (n : ℝ) ^ 2 * ((2 : ℝ) ^ C.emin * max 1 |x| ^ n) := by
    have i1 : (2 : ℝ) ^ C.emin ≤ (2 : ℝ) ^ C.emin * max 1 |x| ^ n := le_mul_of_one_le_right (le_of_lt hη0) hXn
    have i2 : (2 : ℝ) ^ C.emin * max 1 |x| ^ n ≤ (n : ℝ) ^ 2 * ((2 : ℝ) ^ C.emin * max 1 |x| ^ n) :=
      le_mul_of_one_le_left (by positivity) (one_le_pow₀ hn)
    linarith
  have e2 : (1 + C.u) ^ 3 * ((1 + C.u) ^ (n - 1) * |x| ^ n / k) = (1 + C.u) ^ 3 * (1 + C.u) ^ (n - 1) * (|x| ^ n / k) := by ring
  rw [e2]
  linarith

/-- bound of the powers -/
noncomputable def B : ℝ := 2048 ^ 85

theorem B_eq : B = (2 : ℝ) ^ (935 : ℤ) := by
  unfold B
  rw [show (2048 : ℝ) = 2 ^ 11 by norm_num, ← pow_mul, ← zpow_natCast]
  congr 1

theorem B_pos : 0 < B := by unfold B; positivity

theorem le_B {x : ℝ} (hx : |x| ≤ 2048) {n : ℕ} (h2 : n ≤ 85) : max 1 |x| ^ n ≤ B := by
  have hX : max 1 |x| ≤ 2048 := max_le (by norm_num) hx
  have hX1 : (1 : ℝ) ≤ max 1 |x| := le_max_left _ _
  calc max 1 |x| ^ n ≤ max 1 |x| ^ 85 := pow_le_pow_right₀ hX1 h2
    _ ≤ 2048 ^ 85 := pow_le_pow_left₀ (by positivity) hX 85

theorem B_emax (w : C.Big) : 4096 * B ≤ (2 : ℝ) ^ (C.emax - 1) := by
  refine le_trans ?_ w.emax_ge
  rw [B_eq, show (4096 : ℝ) = (2 : ℝ) ^ (12 : ℤ) by norm_num, ← zpow_add₀ (by norm_num)]
  exact zpow_le_zpow_right₀ (by norm_num) (by norm_num)

theorem B_eta (w : C.Big) : (2 : ℝ) ^ C.emin * B * 16777216 ≤ C.u := by
  refine le_trans ?_ w.u_ge
  have h1 := mul_le_mul_of_nonneg_right w.eta_le (le_of_lt (mul_pos B_pos (by norm_num : (0 : ℝ) < 16777216)))
  rw [mul_assoc]
  refine le_trans h1 ?_
  rw [B_eq, show (16777216 : ℝ) = (2 : ℝ) ^ (24 : ℤ) by norm_num, ← zpow_add₀ (by norm_num), ← zpow_add₀ (by norm_num)]
  exact zpow_le_zpow_right₀ (by norm_num) (by norm_num)

theorem termW_le (w : C.Big) {x : ℝ} (hx : |x| ≤ 2048) {n : ℕ} (h2 : n ≤ 85) : termW C x n ≤ 2 * B := by
  unfold termW
  have hX : max 1 |x| ≤ 2048 := max_le (by norm_num) hx
  have hX1 : (1 : ℝ) ≤ max 1 |x| := le_max_left _ _
  have hXn := le_B hx h2
  have hη0 : (0 : ℝ) < (2 : ℝ) ^ C.emin := by positivity
  have hη := w.eta_small
  have hg := w.one_add_le (show n + 2 ≤ 1024 by omega)
  have hu := u_pos (F := C)
  have h3 : |x| ^ n / n.factorial ≤ max 1 |x| ^ n := by
    have h4 : |x| ^ n ≤ max 1 |x| ^ n := pow_le_pow_left₀ (abs_nonneg _) (le_max_right _ _) n
    have h5 : (1 : ℝ) ≤ n.factorial := by exact_mod_cast Nat.factorial_pos n
    exact le_trans (div_le_self (by positivity) h5) h4
  have h4 : (1 + C.u) ^ (n + 2) * (|x| ^ n / n.factorial) ≤ (1 + 1 / 1000000) * B :=
    mul_le_mul hg (le_trans h3 hXn) (by positivity) (by norm_num)
  have hn : (n : ℝ) ≤ 85 := by exact_mod_cast h2
  have h5 : (n : ℝ) ^ 2 ≤ 7225 := by nlinarith [show (0 : ℝ) ≤ n by positivity]
  have h6 : (n : ℝ) ^ 2 * ((2 : ℝ) ^ C.emin * max 1 |x| ^ n) ≤ 7225 * (1 / 1000000000000 * B) :=
    mul_le_mul h5 (mul_le_mul hη hXn (by positivity) (by norm_num)) (by positivity) (by norm_num)
  have h7 := B_pos
  linarith

theorem expTerm_near (w : C.Big) (hf : HasFormat C t) {v : FV} {x : ℝ} (hv : Val v x) (hr : Rep C.p C.emin x)
    (hx : |x| ≤ 2048) {n : ℕ} (h1 : 1 ≤ n) (h2 : n ≤ 85) :
    ∃ q, expTerm C t v n = some q ∧ Near C q (x ^ n / n.factorial) (|x| ^ n / n.factorial) (termW C x n) := by
  have hX1 : (1 : ℝ) ≤ max 1 |x| := le_max_left _ _
  have h935 := B_emax w
  have hB := B_pos
  have hXn := le_B hx h2
  obtain ⟨p, p1, p2⟩ := powNImpl_near w hv hr n h1 (by omega) (by linarith)
  have hW := termW_ge w x h1 n.factorial (Nat.factorial_pos n)
  have hT := termW_le w hx h2
  obtain ⟨q, q1, q2⟩ := div_fact_near w hf (by omega : n ≤ 170) p2 (by unfold termW at hT; linarith)
  refine ⟨q, ?_, q2.mono hW⟩
  unfold expTerm powNU
  rw [if_neg (by omega), p1]
  exact q1

/-- the Taylor polynomial of degree 85 -/
noncomputable def expPoly (x : ℝ) : ℝ := ∑ n ∈ Finset.range 86, x ^ n / n.factorial

theorem expPoly_one_le {x : ℝ} (h : 0 ≤ x) : 1 ≤ expPoly x := by
  unfold expPoly
  rw [Finset.sum_range_succ']
  have : 0 ≤ ∑ n ∈ Finset.range 85, x ^ (n + 1) / (n + 1).factorial := Finset.sum_nonneg fun n _ => by positivity
  simp
  exact this

theorem expPoly_le_exp {x : ℝ} (h : 0 ≤ x) : expPoly x ≤ Real.exp x := Real.sum_le_exp_of_nonneg h 86

theorem expPoly_le {x : ℝ} (h : 0 ≤ x) (hx : x ≤ 2048) : expPoly x ≤ 86 * B := by
  unfold expPoly
  have h1 : ∀ n ∈ Finset.range 86, x ^ n / n.factorial ≤ B := by
    intro n hn
    rw [Finset.mem_range] at hn
    have h5 : (1 : ℝ) ≤ n.factorial := by exact_mod_cast Nat.factorial_pos n
    calc x ^ n / n.factorial ≤ x ^ n := div_le_self (by positivity) h5
      _ ≤ 2048 ^ n := pow_le_pow_left₀ h hx n
      _ ≤ 2048 ^ 85 := pow_le_pow_right₀ (by norm_num) (by omega)
  have h2 := Finset.sum_le_card_nsmul _ _ _ h1
  rw [Finset.card_range, nsmul_eq_mul] at h2
  exact_mod_cast h2

theorem sum_mul_term (x : ℝ) (h : 0 ≤ x) (N : ℕ) :
    ∑ n ∈ Finset.range N, (n : ℝ) * (x ^ n / n.factorial) ≤ x * ∑ n ∈ Finset.range N, x ^ n / n.factorial := by
  cases N with
  | zero => simp
  | succ N =>
    rw [Finset.sum_range_succ', Finset.sum_range_succ (fun n => x ^ n / (n.factorial : ℝ)), mul_add]
    have e : ∀ n ∈ Finset.range N, ((n + 1 : ℕ) : ℝ) * (x ^ (n + 1) / (n + 1).factorial) = x * (x ^ n / n.factorial) := by
      intro n _
      rw [Nat.factorial_succ]
      have : (n.factorial : ℝ) ≠ 0 := by exact_mod_cast Nat.factorial_ne_zero n
      push_cast
      field_simp
      ring
    rw [Finset.sum_congr rfl e, ← Finset.mul_sum]
    have : 0 ≤ x * (x ^ N / N.factorial) := by positivity
    simp
    exact this

theorem one_add_sub_le (w : C.Big) {k : ℕ} (hk : k ≤ 1024) : (1 + C.u) ^ k - 1 ≤ (1 + 1 / 10000) * (k * C.u) := by
  have h1 := w.u_small
  have h2 := u_pos (F := C)
  have hn : (k : ℝ) ≤ 1024 := by exact_mod_cast hk
  have hnu : k * C.u ≤ 1 / 8000000000000 := by nlinarith
  have hnu0 : 0 ≤ k * C.u := by positivity
  have := one_add_pow_le (le_of_lt h2) k (by linarith)
  nlinarith

/-- the sum of the bounds -/
theorem termW_sum (w : C.Big) {x : ℝ} (hx : |x| ≤ 2048) :
    (1 + C.u) * (1 + (1 + C.u) ^ 7 * ∑ n ∈ Finset.Ico (1 : ℕ) 86, termW C x n) ≤ expPoly |x| * (1 + C.u * (|x| + 11)) := by
  have hu := u_pos (F := C)
  have hx0 := abs_nonneg x
  -- the bounds of the underflow
  have hXn : ∀ n, n ≤ 85 → max 1 |x| ^ n ≤ B := fun n h2 => le_B hx h2
  have hη0 : (0 : ℝ) < (2 : ℝ) ^ C.emin := by positivity
  have hsmall : ∀ n ∈ Finset.Ico (1 : ℕ) 86, 2 * ((n : ℝ) ^ 2 * ((2 : ℝ) ^ C.emin * max 1 |x| ^ n)) ≤ C.u / 800 := by
    intro n hn
    rw [Finset.mem_Ico] at hn
    have hn' : (n : ℝ) ≤ 85 := by exact_mod_cast (by omega : n ≤ 85)
    have h5 : (n : ℝ) ^ 2 ≤ 8192 := by nlinarith [show (0 : ℝ) ≤ n by positivity]
    have h6 : (n : ℝ) ^ 2 * ((2 : ℝ) ^ C.emin * max 1 |x| ^ n) ≤ 8192 * ((2 : ℝ) ^ C.emin * B) :=
      mul_le_mul h5 (mul_le_mul_of_nonneg_left (hXn n (by omega)) (le_of_lt hη0)) (by positivity) (by norm_num)
    have h7 := B_eta w
    linarith
  have hs : ∑ n ∈ Finset.Ico (1 : ℕ) 86, 2 * ((n : ℝ) ^ 2 * ((2 : ℝ) ^ C.emin * max 1 |x| ^ n)) ≤ C.u / 8 := by
    have := Finset.sum_le_card_nsmul _ _ _ hsmall
    simp at this
    linarith
  -- the main part
  have hI : ∑ n ∈ Finset.Ico (1 : ℕ) 86, termW C x n = ∑ n ∈ Finset.Ico (1 : ℕ) 86, (1 + C.u) ^ (n + 2) * (|x| ^ n / n.factorial) +
      ∑ n ∈ Finset.Ico (1 : ℕ) 86, 2 * ((n : ℝ) ^ 2 * ((2 : ℝ) ^ C.emin * max 1 |x| ^ n)) := by
    rw [← Finset.sum_add_distrib]
    rfl
  have hg8 := w.one_add_le (show 8 ≤ 1024 by norm_num)
  have hmain : (1 + C.u) ^ 8 * ∑ n ∈ Finset.Ico (1 : ℕ) 86, (1 + C.u) ^ (n + 2) * (|x| ^ n / n.factorial) + (1 + C.u) ^ 10 ≤
      ∑ n ∈ Finset.range 86, (1 + C.u) ^ (n + 10) * (|x| ^ n / n.factorial) := by
    rw [Finset.range_eq_Ico, Finset.sum_eq_sum_Ico_succ_bot (by norm_num : 0 < 86), Finset.mul_sum]
    simp only [zero_add, pow_zero, Nat.factorial_zero, Nat.cast_one, div_one, mul_one]
    rw [add_comm]
    apply le_of_eq
    congr 1
    refine Finset.sum_congr rfl fun n _ => ?_
    rw [show n + 10 = 8 + (n + 2) by ring, pow_add _ 8]
    ring
  have hsum : ∑ n ∈ Finset.range 86, (1 + C.u) ^ (n + 10) * (|x| ^ n / n.factorial) ≤
      expPoly |x| + (1 + 1 / 10000) * C.u * ((|x| + 10) * expPoly |x|) := by
    have h1 : ∀ n ∈ Finset.range 86, (1 + C.u) ^ (n + 10) * (|x| ^ n / n.factorial) ≤
        |x| ^ n / n.factorial + (1 + 1 / 10000) * C.u * ((n : ℝ) * (|x| ^ n / n.factorial) + 10 * (|x| ^ n / n.factorial)) := by
      intro n hn
      rw [Finset.mem_range] at hn
      have h2 := one_add_sub_le w (show n + 10 ≤ 1024 by omega)
      have h3 : 0 ≤ |x| ^ n / n.factorial := by positivity
      have := mul_le_mul_of_nonneg_right h2 h3
      push_cast at this
      nlinarith
    refine le_trans (Finset.sum_le_sum h1) ?_
    rw [Finset.sum_add_distrib, ← Finset.mul_sum, Finset.sum_add_distrib, ← Finset.mul_sum]
    have h2 := sum_mul_term |x| hx0 86
    unfold expPoly
    have h3 := mul_le_mul_of_nonneg_left h2 (show 0 ≤ (1 + 1 / 10000) * C.u by positivity)
    nlinarith
  have hE := expPoly_one_le hx0
  have e1 : (1 + C.u) * (1 + (1 + C.u) ^ 7 * ∑ n ∈ Finset.Ico (1 : ℕ) 86, termW C x n) =
      (1 + C.u) + (1 + C.u) ^ 8 * ∑ n ∈ Finset.Ico (1 : ℕ) 86, (1 + C.u) ^ (n + 2) * (|x| ^ n / n.factorial) +
      (1 + C.u) ^ 8 * ∑ n ∈ Finset.Ico (1 : ℕ) 86, 2 * ((n : ℝ) ^ 2 * ((2 : ℝ) ^ C.emin * max 1 |x| ^ n)) := by
    rw [hI]; ring
  have hs0 : 0 ≤ ∑ n ∈ Finset.Ico (1 : ℕ) 86, 2 * ((n : ℝ) ^ 2 * ((2 : ℝ) ^ C.emin * max 1 |x| ^ n)) :=
    Finset.sum_nonneg fun n _ => by positivity
  have h3 : (1 + C.u) ^ 8 * ∑ n ∈ Finset.Ico (1 : ℕ) 86, 2 * ((n : ℝ) ^ 2 * ((2 : ℝ) ^ C.emin * max 1 |x| ^ n)) ≤
      (1 + 1 / 1000000) * (C.u / 8) := mul_le_mul hg8 hs hs0 (by norm_num)
  have h4 : 1 + C.u ≤ (1 + C.u) ^ 10 := by
    calc 1 + C.u = (1 + C.u) ^ 1 := by ring
      _ ≤ (1 + C.u) ^ 10 := pow_le_pow_right₀ (by linarith) (by norm_num)
  rw [e1]
  have h5 : C.u * 1 ≤ C.u * expPoly |x| := mul_le_mul_of_nonneg_left hE (le_of_lt hu)
  have h6 : |x| / 10000 * (C.u * expPoly |x|) ≤ 2048 / 10000 * (C.u * expPoly |x|) :=
    mul_le_mul_of_nonneg_right (by linarith) (by linarith)
  linarith

theorem expPoly_eq (x : ℝ) : 1 + ∑ n ∈ Finset.Ico (1 : ℕ) 86, x ^ n / n.factorial = expPoly x := by
  unfold expPoly
  rw [Finset.range_eq_Ico, Finset.sum_eq_sum_Ico_succ_bot (by norm_num : 0 < 86)]
  simp

theorem rel_small (w : C.Big) {x : ℝ} (hx : |x| ≤ 2048) : C.u * (|x| + 11) ≤ 1 / 1000000 := by
  have h1 := w.u_small
  have h2 := u_pos (F := C)
  have h0 := abs_nonneg x
  calc C.u * (|x| + 11) ≤ 1 / 9007199254740992 * (2048 + 11) := mul_le_mul h1 (by linarith) (by linarith) (by norm_num)
    _ ≤ _ := by norm_num

/-- `1 + exp_impl_1(x, 1, 86)` -/
theorem expSum_near (w : C.Big) (hf : HasFormat C t) {v : FV} {x : ℝ} (hv : Val v x) (hr : Rep C.p C.emin x)
    (hx : |x| ≤ 2048) : ∃ s, expSeries C t v = some s ∧
      Near C (C.add (.num 1) s) (expPoly x) (expPoly |x|) (expPoly |x| * (1 + C.u * (|x| + 11))) := by
  have hu := u_pos (F := C)
  have hB := B_pos
  have hmax := B_emax w
  have hsum := termW_sum w hx
  have hE := expPoly_one_le (abs_nonneg x)
  have hE2 := expPoly_le (abs_nonneg x) hx
  have hrel := rel_small w hx
  have hfin : expPoly |x| * (1 + C.u * (|x| + 11)) ≤ (2 : ℝ) ^ (C.emax - 1) := by
    have : expPoly |x| * (1 + C.u * (|x| + 11)) ≤ 86 * B * 2 := mul_le_mul hE2 (by linarith) (by
      have := abs_nonneg x; positivity) (by linarith)
    linarith
  have hS0 : 0 ≤ (1 + C.u) ^ 7 * ∑ n ∈ Finset.Ico (1 : ℕ) 86, termW C x n := by
    refine mul_nonneg (by positivity) (Finset.sum_nonneg fun n _ => ?_)
    unfold termW
    positivity
  obtain ⟨s, s1, s2⟩ := series_near (C := C) (term := expTerm C t v) (a := fun n => x ^ n / n.factorial)
    (A := fun n => |x| ^ n / n.factorial) (W := fun n => termW C x n) 7 1 86 (by norm_num) (by norm_num)
    (fun k hk1 hk2 => expTerm_near w hf hv hr hx hk1 (by omega)) (by nlinarith)
  refine ⟨s, ?_, ?_⟩
  · unfold expSeries
    rw [limit_big w hf]
    exact s1
  · have := Near.one.add s2 (by linarith)
    rw [expPoly_eq, expPoly_eq] at this
    exact this.mono hsum

/-- the reciprocal -/
theorem expInv_near (w : C.Big) (hf : HasFormat C t) {v : FV} {x : ℝ} (hv : Val v x) (hr : Rep C.p C.emin x)
    (hx0 : 0 ≤ x) (hx : x ≤ 2048) : ∃ s, expSeries C t v = some s ∧ ∃ r, Val (C.div (.num 1) (C.add (.num 1) s)) r ∧
      Rep C.p C.emin r ∧ |r - 1 / expPoly x| ≤ C.u * (x + 13) * (1 / expPoly x) ∧ |r| ≤ 2 := by
  have ha : |x| = x := abs_of_nonneg hx0
  obtain ⟨s, s1, s2⟩ := expSum_near w hf hv hr (by rw [ha]; exact hx)
  rw [ha] at s2
  have hu := u_pos (F := C)
  have hE := expPoly_one_le hx0
  have hE2 := expPoly_le hx0 hx
  have hrel := rel_small w (x := x) (by rw [ha]; exact hx)
  rw [ha] at hrel
  have hη0 : (0 : ℝ) < (2 : ℝ) ^ C.emin := by positivity
  have hη := w.eta_small
  have hu8 := w.u_small
  have hd0 : 0 ≤ C.u * (x + 11) := by positivity
  have hBη := B_eta w
  obtain ⟨E, hEe⟩ : ∃ E, E = expPoly x := ⟨_, rfl⟩
  obtain ⟨δ, hδ⟩ : ∃ δ, δ = C.u * (x + 11) := ⟨_, rfl⟩
  rw [← hEe, ← hδ] at s2
  rw [← hEe] at hE hE2
  rw [← hδ] at hrel hd0
  have e1 : 2 * E - E * (1 + δ) = E * (1 - δ) := by ring
  have hW : (1 + C.u) * (1 / (2 * E - E * (1 + δ))) + (2 : ℝ) ^ C.emin / 2 ≤ 1 / E + C.u * (x + 13) * (1 / E) := by
    rw [e1, ← div_div]
    have hi : 0 < 1 / E := by positivity
    have h1 : 1 / E / (1 - δ) ≤ (1 + δ + 2 * δ * δ) * (1 / E) := by
      rw [div_le_iff₀ (by linarith)]
      have : 1 ≤ (1 + δ + 2 * δ * δ) * (1 - δ) := by
        have i1 : δ * δ * δ ≤ δ * δ * (1 / 1000000) := mul_le_mul_of_nonneg_left hrel (mul_nonneg hd0 hd0)
        nlinarith [mul_nonneg hd0 hd0]
      have := mul_le_mul_of_nonneg_right this (le_of_lt hi)
      linarith
    have h2 : δ * δ ≤ C.u / 8 := by
      have i1 : δ ≤ C.u * (2048 + 11) := by rw [hδ]; exact mul_le_mul_of_nonneg_left (by linarith) (le_of_lt hu)
      have i2 : δ * δ ≤ C.u * (2048 + 11) * (1 / 1000000) := mul_le_mul i1 hrel hd0 (by positivity)
      linarith
    have h3 : (2 : ℝ) ^ C.emin ≤ C.u / 8 * (1 / E) := by
      rw [mul_one_div, le_div_iff₀ (by linarith)]
      have i1 : (2 : ℝ) ^ C.emin * E ≤ (2 : ℝ) ^ C.emin * (86 * B) := mul_le_mul_of_nonneg_left hE2 (le_of_lt hη0)
      have i2 : 0 ≤ (2 : ℝ) ^ C.emin * B := mul_nonneg (le_of_lt hη0) (le_of_lt B_pos)
      linarith
    have h4 : (1 + C.u) * (1 / E / (1 - δ)) ≤ (1 + C.u) * ((1 + δ + 2 * δ * δ) * (1 / E)) :=
      mul_le_mul_of_nonneg_left h1 (by linarith)
    have h5 : (1 + C.u) * (1 + δ + 2 * δ * δ) ≤ 1 + C.u * (x + 13) - C.u / 8 := by
      have i1 : C.u * δ ≤ C.u * (1 / 1000000) := mul_le_mul_of_nonneg_left hrel (le_of_lt hu)
      have i2 : C.u * (2 * δ * δ) ≤ C.u * (1 / 1000000) := by
        refine mul_le_mul_of_nonneg_left ?_ (le_of_lt hu)
        linarith
      rw [hδ] at *
      nlinarith
    have h6 := mul_le_mul_of_nonneg_right h5 (le_of_lt hi)
    linarith
  have hbd : 1 / E + C.u * (x + 13) * (1 / E) ≤ 2 := by
    have h1 : 1 / E ≤ 1 := by rw [div_le_one (by linarith)]; exact hE
    have h2 : C.u * (x + 13) ≤ 1 / 2 := by
      have : C.u * (x + 13) = δ + 2 * C.u := by rw [hδ]; ring
      linarith
    have h3 : 0 ≤ C.u * (x + 13) := by positivity
    have h4 : 0 < 1 / E := by positivity
    nlinarith
  have h2e : (2 : ℝ) ≤ (2 : ℝ) ^ (C.emax - 1) := by
    have := w.emax
    calc (2 : ℝ) = (2 : ℝ) ^ (1 : ℤ) := by norm_num
      _ ≤ _ := zpow_le_zpow_right₀ (by norm_num) (by omega)
  obtain ⟨r, r1, r2, r3, r4⟩ := Near.one.div s2 (by linarith) (by nlinarith) (by linarith)
  refine ⟨s, s1, r, r1, r2, ?_, ?_⟩
  · rw [← hEe]; linarith
  · exact le_trans (Near.abs_le r3 r4) (by linarith)

theorem exp_poly {x : ℝ} (hx : |x| ≤ 43) : |Real.exp x - expPoly x| ≤ |x| ^ 86 / (86 : ℕ).factorial * 2 := by
  have h := Complex.exp_bound' (x := (x : ℂ)) (n := 86) (by
    rw [Complex.norm_real, Real.norm_eq_abs]
    push_cast
    linarith)
  rw [Complex.norm_real, Real.norm_eq_abs] at h
  have e : Complex.exp (x : ℂ) - ∑ m ∈ Finset.range 86, (x : ℂ) ^ m / m.factorial =
      ((Real.exp x - expPoly x : ℝ) : ℂ) := by
    unfold expPoly
    push_cast
    rfl
  rw [e, Complex.norm_real, Real.norm_eq_abs] at h
  exact h

theorem val_has {v : FV} {r : ℝ} (h : Val v r) (hr : Rep C.p C.emin r) (hb : |r| < (2 : ℝ) ^ C.emax) : C.Has v := by
  obtain ⟨s, rfl⟩ := h
  exact has_mkv hr hb

end MathExp

end Sprout
