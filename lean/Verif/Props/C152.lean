import Verif.Proofs.Gamma
import Mathlib.Data.Nat.Factorial.Basic
import Mathlib.Data.Nat.Factorial.BigOperators

/-!
# C152: the gamma function satisfies its functional equation

`lim` is `factorial_limit<T>()`, 170 for the types of computation (`double`, `long double`).
-/

namespace Sprout

open Gamma

/-- `Γ(x + 1) = x Γ(x)` for all `x` in the range of the reduction, from `3/2 - lim` to `lim + 3/2`, except at `3/2` -/
theorem C152_recurrence_partial (lim : ℕ) (hl : 2 ≤ lim) (hl' : lim ≤ 2 ^ 30) (x : ℝ) (hx : ∀ i : ℕ, x ≠ -i) (h1 : 3 / 2 - (lim : ℝ) < x)
    (h2 : x < lim + 3 / 2) (h3 : x ≠ 3 / 2) :
    ∃ v, tgamma lim x = some (.ret v) ∧ tgamma lim (x + 1) = some (.ret (x * v)) := by
  obtain ⟨n, hp, hm⟩ := round_ex (x - 2)
  have hb : (n : ℝ) - 1 / 2 ≤ x - 2 ∧ x - 2 ≤ n + 1 / 2 := by
    rcases lt_or_ge (x - 2) 0 with h | h
    · exact ⟨(hm h).1.le, (hm h).2⟩
    · exact ⟨(hp h).1, (hp h).2.le⟩
  have n1 : -(lim : ℤ) - 1 < n := by
    have : ((-(lim : ℤ) - 1 : ℤ) : ℝ) < n := by push_cast; linarith
    exact_mod_cast this
  have n2 : n < (lim : ℤ) := by
    by_cases e : n = lim
    · exfalso
      have er : (n : ℝ) = lim := by rw [e]; simp
      linarith
    · have : (n : ℝ) < ((lim + 1 : ℤ) : ℝ) := by push_cast; linarith
      have : n < (lim : ℤ) + 1 := by exact_mod_cast this
      omega
  have a := (tgamma_val lim hl hl' x hx n (by omega) (by omega) hp hm).1
  refine ⟨_, a, ?_⟩
  rw [← val_succ x n (fun h => hx 0 (by simpa using h))]
  refine (tgamma_val lim hl hl' (x + 1) (fun i h => hx (i + 1) (by push_cast; linarith)) (n + 1) (by omega) (by omega) ?_ ?_).1
  · intro h
    push_cast
    rcases lt_or_ge (x - 2) 0 with h' | h'
    · obtain ⟨c, d⟩ := hm h'
      refine ⟨by linarith, ?_⟩
      by_contra hc
      push Not at hc
      have e : x = n + 5 / 2 := by linarith
      have m1 : (n : ℝ) < 0 := by linarith
      have m2 : ((-2 : ℤ) : ℝ) < n := by push_cast; linarith
      have m1 : n < 0 := by exact_mod_cast m1
      have m2 : -2 < n := by exact_mod_cast m2
      have : n = -1 := by omega
      rw [this] at e
      norm_num at e
      exact h3 e
    · obtain ⟨c, d⟩ := hp h'
      constructor <;> linarith
  · intro h
    push_cast
    obtain ⟨c, d⟩ := hm (by linarith)
    constructor <;> linarith

example : ∃ v, tgamma 170 (5 / 4) = some (.ret v) ∧ tgamma 170 (5 / 4 + 1) = some (.ret (5 / 4 * v)) :=
  C152_recurrence_partial 170 (by norm_num) (by norm_num) (5 / 4) (fun i => by have : (0 : ℝ) ≤ i := Nat.cast_nonneg i; intro h; linarith)
    (by norm_num) (by norm_num) (by norm_num)

/-- at `3/2` the two halves of the polynomial meet: the functional equation fails ... -/
theorem C152_half_refuted : ∃ v w, tgamma 170 (3 / 2) = some (.ret v) ∧ tgamma 170 (3 / 2 + 1) = some (.ret w) ∧ w ≠ 3 / 2 * v ∧
    |w - 3 / 2 * v| ≤ 1 / 10 ^ 15 := by
  have a := (tgamma_val 170 (by norm_num) (by norm_num) (3 / 2) (fun i => by have : (0 : ℝ) ≤ i := Nat.cast_nonneg i; intro h; linarith)
    (-1) (by norm_num) (by norm_num) (by norm_num) (by norm_num)).1
  have b := (tgamma_val 170 (by norm_num) (by norm_num) (3 / 2 + 1) (fun i => by have : (0 : ℝ) ≤ i := Nat.cast_nonneg i; intro h; linarith)
    1 (by norm_num) (by norm_num) (by norm_num) (by norm_num)).1
  refine ⟨_, _, a, b, ?_⟩
  have e1 : val (3 / 2) (-1) = 1 / (implY (1 / 2) * (3 / 2)) := by norm_num [val]
  have e2 : val (3 / 2 + 1) 1 = (3 / 2) / implY (-1 / 2) := by norm_num [val]
  rw [e1, e2]
  simp only [implY, yCoef, horner, List.foldl]
  norm_num

/-- `Γ(m + 1)` is `m!` but for the last coefficient, for all `m` up to `lim + 1` -/
theorem C152_factorial (lim : ℕ) (hl : 2 ≤ lim) (hl' : lim ≤ 2 ^ 30) (m : ℕ) (hm : m ≤ lim + 1) :
    tgamma lim (m + 1) = some (.ret (m.factorial / 0.99999999999999999)) := by
  have hmr : (m : ℝ) ≤ lim + 1 := by exact_mod_cast hm
  have h0 : (0 : ℝ) ≤ m := Nat.cast_nonneg m
  have := (tgamma_val lim hl hl' (m + 1) (fun i => by have : (0 : ℝ) ≤ i := Nat.cast_nonneg i; intro h; linarith) (m - 1) (by omega)
    (by omega) (fun _ => by push_cast; constructor <;> linarith) (fun _ => by push_cast; constructor <;> linarith)).1
  rw [this]
  congr 2
  have ey : (m : ℝ) + 1 - (((m - 1 : ℤ) : ℝ) + 2) = 0 := by push_cast; ring
  unfold val
  rw [ey, implY_zero]
  cases m with
  | zero => norm_num
  | succ k =>
    rw [if_pos (by omega), show (((k + 1 : ℕ) : ℤ) - 1).toNat = k from by omega]
    congr 1
    rw [← Finset.prod_range_add_one_eq_factorial, Nat.cast_prod, Finset.prod_range_succ', ← Finset.prod_range_reflect]
    simp only [Nat.cast_add, Nat.cast_one, Nat.cast_zero, zero_add, mul_one]
    apply Finset.prod_congr rfl
    intro i hi
    rw [Finset.mem_range] at hi
    rw [show k - 1 - i = k - (i + 1) from by omega, Nat.cast_sub (by omega)]
    push_cast
    ring

example : tgamma 170 (4 + 1) = some (.ret (24 / 0.99999999999999999)) := by
  have := C152_factorial 170 (by norm_num) (by norm_num) 4 (by norm_num)
  norm_num [Nat.factorial] at this ⊢
  exact this

/-- it is positive for positive `x` below `lim + 5/2` ... -/
theorem C152_pos_partial (lim : ℕ) (hl : 2 ≤ lim) (hl' : lim ≤ 2 ^ 30) (x : ℝ) (hx : 0 < x) (h2 : x < lim + 5 / 2) :
    ∃ v, tgamma lim x = some (.ret v) ∧ 0 < v := by
  obtain ⟨n, hp, hm⟩ := round_ex (x - 2)
  have hb : (n : ℝ) - 1 / 2 ≤ x - 2 ∧ x - 2 ≤ n + 1 / 2 := by
    rcases lt_or_ge (x - 2) 0 with h | h
    · exact ⟨(hm h).1.le, (hm h).2⟩
    · exact ⟨(hp h).1, (hp h).2.le⟩
  have n1 : (-3 : ℤ) < n := by
    have : ((-3 : ℤ) : ℝ) < n := by push_cast; linarith
    exact_mod_cast this
  have n2 : n < (lim : ℤ) + 1 := by
    have : (n : ℝ) < ((lim + 1 : ℤ) : ℝ) := by push_cast; linarith
    exact_mod_cast this
  obtain ⟨a, hy⟩ := tgamma_val lim hl hl' x (fun i => by have : (0 : ℝ) ≤ i := Nat.cast_nonneg i; intro h; linarith) n (by omega) (by omega)
    hp hm
  refine ⟨_, a, ?_⟩
  unfold val
  by_cases hn : 0 ≤ n
  · rw [if_pos hn]
    refine div_pos (Finset.prod_pos fun i hi => ?_) hy
    rw [Finset.mem_range] at hi
    have h1 : (i : ℤ) + 1 ≤ n := by omega
    have h1 : ((i + 1 : ℤ) : ℝ) ≤ n := by exact_mod_cast h1
    push_cast at h1
    linarith
  · rw [if_neg hn]
    exact one_div_pos.mpr (mul_pos hy (Finset.prod_pos fun i _ => add_pos_of_pos_of_nonneg hx (Nat.cast_nonneg i)))

/-- ... and negative from `lim + 6` on, as long as the argument can be rounded to `int` -/
theorem C152_large_refuted (lim : ℕ) (hl : 2 ≤ lim) (x : ℝ) (h1 : (lim : ℝ) + 6 ≤ x) (h2 : x ≤ 2 ^ 31) :
    ∃ v, tgamma lim x = some (.ret v) ∧ v < 0 := by
  have hl0 : (0 : ℝ) ≤ lim := Nat.cast_nonneg lim
  obtain ⟨n, hp, hm⟩ := round_ex (x - 2)
  obtain ⟨b1, b2⟩ := hp (by linarith)
  have hn : (lim : ℤ) < n := by
    have : ((lim : ℤ) : ℝ) < n := by push_cast; linarith
    exact_mod_cast this
  have hy : implY (x - ((lim : ℤ) + 2)) < 0 := implY_neg _ (by push_cast; linarith)
  refine ⟨val x lim, ?_, ?_⟩
  · unfold tgamma
    rw [if_neg (by linarith), if_neg (by rintro ⟨h, _⟩; linarith), impl,
      iround_eq (x - 2) n (by norm_num [intMin]; linarith) (by norm_num [intMax]; linarith) hp hm]
    simp only []
    rw [show clampInt n (-lim) lim = lim from by unfold clampInt; rw [if_neg (by omega), if_pos (by omega)],
      impl1_eq lim hl x lim (by omega) (by omega) hy.ne ?_ ?_]
    · rfl
    · intro e i hi h0
      have : (i : ℝ) ≤ lim := by exact_mod_cast hi
      linarith
    · intro i h0
      have : (0 : ℝ) ≤ i := Nat.cast_nonneg i
      linarith
  · unfold val
    rw [if_pos (by omega)]
    refine div_neg_of_pos_of_neg (Finset.prod_pos fun i hi => ?_) hy
    rw [Finset.mem_range] at hi
    have : ((i : ℕ) : ℝ) < lim := by
      have : i < lim := by omega
      exact_mod_cast this
    linarith

example : ∃ v, tgamma (MathTables.FloatTy.limit .double) 176 = some (.ret v) ∧ v < 0 :=
  C152_large_refuted _ (by decide) 176 (by norm_num [MathTables.FloatTy.limit]) (by norm_num)

/-- arguments that do not fit `int` throw an exception, where the result overflows to infinity for smaller ones -/
theorem C152_huge_refuted (lim : ℕ) (x : ℝ) (h : 2 ^ 31 + 1 < x) : tgamma lim x = some (.throw .runtimeError) := by
  unfold tgamma
  rw [if_neg (by linarith), if_neg (by rintro ⟨h, _⟩; linarith), impl, iround, if_neg (by linarith),
    if_pos (Or.inl (by norm_num [intMax]; linarith))]

/-- no results at the poles -/
theorem C152_poles (lim : ℕ) (i : ℕ) : tgamma lim (-i) = none := by
  unfold tgamma
  by_cases h : (-(i : ℝ)) = 0
  · rw [if_pos h]
  · rw [if_neg h, if_pos]
    refine ⟨lt_of_le_of_ne (by simp) h, -i, by simp⟩

example : tgamma 170 (-(3 : ℕ)) = none := C152_poles 170 3

end Sprout
