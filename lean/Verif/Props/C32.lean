import Verif.Props.C31

/-!
# C32: rational comparison

Proved: `==`, and `<`, `>`, `<=`, `>=` between rationals. With an integer operand: `==` is right; `<` and what is built on it is
right for an integer or non-negative rational, and in general exactly described; it is refuted for `-1/2 < 0`.
-/

namespace Sprout
open Spec Rational

/-- `reverse` swaps the sides; the operands are `n1 / d1` and `n2 / d2` with `n = q * d + r` -/
theorem lessImpl2_eq (k : Nat) : ∀ d1 q1 r1 d2 q2 r2 : Int, ∀ rev : Bool, d1.toNat = k → 0 ≤ r1 → r1 < d1 → 0 ≤ r2 →
    r2 < d2 → lessImpl2 d1 q1 r1 d2 q2 r2 rev =
      some (if rev then decide ((q2 * d2 + r2) * d1 < (q1 * d1 + r1) * d2)
        else decide ((q1 * d1 + r1) * d2 < (q2 * d2 + r2) * d1)) := by
  induction k using Nat.strongRecOn with
  | ind k ih =>
    intro d1 q1 r1 d2 q2 r2 rev hk a1 a2 b1 b2
    have lt_of {p1 p2 s1 s2 e1 e2 : Int} (h1 : 0 ≤ s1) (h2 : s1 < e1) (h3 : 0 ≤ s2) (h4 : s2 < e2) (h : p1 < p2) :
        (p1 * e1 + s1) * e2 < (p2 * e2 + s2) * e1 := by
      have k1 : (p1 * e1 + s1) < (p1 + 1) * e1 := by rw [Int.add_mul]; omega
      have k2 : (p1 + 1) * e1 ≤ p2 * e1 := Int.mul_le_mul_of_nonneg_right (by omega) (by omega)
      have k3 : (p1 * e1 + s1) * e2 < p2 * e1 * e2 := Int.mul_lt_mul_of_pos_right (by omega) (by omega)
      have k4 : 0 ≤ s2 * e1 := Int.mul_nonneg h3 (by omega)
      have k5 : p2 * e1 * e2 = p2 * e2 * e1 := by ring
      rw [Int.add_mul (p2 * e2)]; omega
    rw [lessImpl2]
    by_cases hq : q1 = q2
    · subst hq
      rw [if_neg (by simp)]
      have hexp1 : (q1 * d1 + r1) * d2 = q1 * d1 * d2 + r1 * d2 := Int.add_mul _ _ _
      have hexp2 : (q1 * d2 + r2) * d1 = q1 * d1 * d2 + r2 * d1 := by ring
      rw [hexp1, hexp2]
      by_cases h0 : r1 = 0 ∨ r2 = 0
      · rw [if_pos h0]
        by_cases h1 : r1 = r2
        · have : r1 = 0 := by omega
          have : r2 = 0 := by omega
          subst r1 r2
          cases rev <;> simp
        · rw [if_neg h1]
          congr 1
          by_cases hr : r1 = 0
          · have p : 0 < r2 * d1 := Int.mul_pos (by omega) (by omega)
            subst hr
            cases rev
            · simp; omega
            · simp; omega
          · have hr2 : r2 = 0 := by omega
            have p : 0 < r1 * d2 := Int.mul_pos (by omega) (by omega)
            subst hr2
            cases rev
            · simp [hr]; omega
            · simp [hr]; omega
      · rw [if_neg h0, dv_eq (show r1 ≠ 0 by omega), md_eq (show r1 ≠ 0 by omega), dv_eq (show r2 ≠ 0 by omega),
          md_eq (show r2 ≠ 0 by omega)]
        simp only [Option.bind_eq_bind, Option.bind_some]
        rw [ih r1.toNat (by omega) r1 _ _ r2 _ _ (!rev) rfl (Int.tmod_nonneg _ (by omega))
          (Int.tmod_lt_of_pos _ (by omega)) (Int.tmod_nonneg _ (by omega)) (Int.tmod_lt_of_pos _ (by omega)),
          Int.tdiv_mul_add_tmod, Int.tdiv_mul_add_tmod]
        congr 1
        have c1 : d1 * r2 = r2 * d1 := Int.mul_comm _ _
        have c2 : d2 * r1 = r1 * d2 := Int.mul_comm _ _
        rw [c1, c2]
        cases rev
        · simp
        · simp
    · rw [if_pos hq]
      congr 1
      cases rev
      · simp only [Bool.false_eq_true, if_false]
        apply decide_eq_decide.2
        constructor
        · exact lt_of a1 a2 b1 b2
        · intro h
          by_contra hh
          have := lt_of b1 b2 a1 a2 (show q2 < q1 by omega)
          omega
      · simp only [if_true]
        apply decide_eq_decide.2
        constructor
        · exact lt_of b1 b2 a1 a2
        · intro h
          by_contra hh
          have := lt_of a1 a2 b1 b2 (show q1 < q2 by omega)
          omega

theorem lessImpl1_eq {d1 q1 r1 d2 q2 r2 : Int} (a1 : 0 ≤ r1) (a2 : r1 < d1) (b1 : -d2 < r2) (b2 : r2 < d2) :
    lessImpl1 d1 q1 r1 d2 q2 r2 = some (decide ((q1 * d1 + r1) * d2 < (q2 * d2 + r2) * d1)) := by
  rw [lessImpl1]
  split
  · rw [lessImpl1, if_neg (by omega), lessImpl2_eq _ _ _ _ _ _ _ _ rfl a1 a2 (by omega) (by omega)]
    simp only [Bool.false_eq_true, if_false]
    rw [show (q2 - 1) * d2 + (r2 + d2) = q2 * d2 + r2 by ring]
  · rw [lessImpl2_eq _ _ _ _ _ _ _ _ rfl a1 a2 (by omega) (by omega)]
    rfl

theorem tmod_bounds (a : Int) {b : Int} (h : 0 < b) : -b < a.tmod b ∧ a.tmod b < b := by
  refine ⟨?_, Int.tmod_lt_of_pos _ h⟩
  have := Int.tmod_lt_of_pos (-a) h
  rw [Int.neg_tmod] at this
  omega

theorem less_eq {x y : Rational} (hx : 0 < x.den) (hy : 0 < y.den) :
    less x y = some (decide (x.num * y.den < y.num * x.den)) := by
  have hb := tmod_bounds x.num hx
  have hb' := tmod_bounds y.num hy
  have he : x.num = x.num.tdiv x.den * x.den + x.num.tmod x.den := (Int.tdiv_mul_add_tmod _ _).symm
  have he' : y.num = y.num.tdiv y.den * y.den + y.num.tmod y.den := (Int.tdiv_mul_add_tmod _ _).symm
  have fin : ∀ q r : Int, 0 ≤ r → r < x.den → q * x.den + r = x.num →
      lessImpl y x.den q r = some (decide (x.num * y.den < y.num * x.den)) := by
    intro q r h1 h2 h3
    rw [lessImpl, if_neg (by omega), dv_eq (by omega), md_eq (by omega)]
    simp only [Option.bind_eq_bind, Option.bind_some]
    rw [lessImpl1_eq h1 h2 hb'.1 hb'.2, h3, ← he']
  rw [less, dv_eq (by omega), md_eq (by omega)]
  simp only [Option.bind_eq_bind, Option.bind_some]
  by_cases h : x.num.tmod x.den < 0
  · rw [lessImpl, if_pos h]
    refine fin _ _ (by omega) (by omega) ?_
    conv_rhs => rw [he]
    ring
  · exact fin _ _ (by omega) (by omega) he.symm

theorem val_lt_iff {x y : Rational} (hx : 0 < x.den) (hy : 0 < y.den) :
    val x < val y ↔ x.num * y.den < y.num * x.den := by
  have q1 : (0 : ℚ) < x.den := by exact_mod_cast hx
  have q2 : (0 : ℚ) < y.den := by exact_mod_cast hy
  rw [val, val, div_lt_div_iff₀ q1 q2]
  exact_mod_cast Iff.rfl

theorem C32_eq {x y : Rational} (hx : Normal x) (hy : Normal y) : eq x y = true ↔ val x = val y := by
  constructor
  · intro h
    simp only [eq, Bool.and_eq_true, beq_iff_eq] at h
    rw [val, val, h.1, h.2]
  · intro h
    rw [C31_canonical hx hy h]; simp [eq]

/-- `<`, `>`, `<=`, `>=` between rationals always return, and agree with the order of the numbers -/
theorem C32_order {x y : Rational} (hx : Normal x) (hy : Normal y) :
    (∃ b, less x y = some b ∧ (b = true ↔ val x < val y)) ∧
    (∃ b, greater x y = some b ∧ (b = true ↔ val x > val y)) ∧
    (∃ b, lessEq x y = some b ∧ (b = true ↔ val x ≤ val y)) ∧
    (∃ b, greaterEq x y = some b ∧ (b = true ↔ val x ≥ val y)) := by
  have h1 := less_eq hx.1 hy.1
  have h2 := less_eq hy.1 hx.1
  refine ⟨⟨_, h1, ?_⟩, ⟨_, h2, ?_⟩, ⟨_, by rw [lessEq, h2]; rfl, ?_⟩, ⟨_, by rw [greaterEq, h1]; rfl, ?_⟩⟩
  · rw [val_lt_iff hx.1 hy.1, decide_eq_true_eq]
  · rw [gt_iff_lt, val_lt_iff hy.1 hx.1, decide_eq_true_eq]
  · rw [← not_lt, val_lt_iff hy.1 hx.1]; simp
  · rw [ge_iff_le, ← not_lt, val_lt_iff hx.1 hy.1]; simp

/-- `rational == int` -/
theorem C32_eq_int {x : Rational} (hx : Normal x) (n : Int) : eqInt x n = true ↔ val x = n := by
  rw [← (C31_construct_integer n).2.2.2, ← C32_eq hx (C31_construct_integer n).2.2.1]
  simp [eqInt, eq, ofInt, and_comm]

/-- what `rational < int` computes: for a negative rational that is not an integer the denominator is added to its
integer part -/
theorem lessRI_eq {x : Rational} (hx : 0 < x.den) (n : Int) :
    lessRI x n = some (decide ((if x.num.tmod x.den < 0 then x.num.tdiv x.den - 1 + x.den else x.num.tdiv x.den) < n)) := by
  have hb := tmod_bounds x.num hx
  rw [lessRI, dv_eq (by omega), md_eq (by omega)]
  simp only [Option.bind_eq_bind, Option.bind_some]
  rw [lessIntImpl]
  split
  · rename_i h
    have hq : x.num.tdiv x.den ≤ 0 := by
      have he : x.num.tdiv x.den * x.den + x.num.tmod x.den = x.num := Int.tdiv_mul_add_tmod _ _
      by_contra hc
      have : 0 ≤ x.num.tdiv x.den * x.den := Int.mul_nonneg (by omega) (by omega)
      by_cases hn : 0 ≤ x.num
      · have := Int.tmod_nonneg x.den hn; omega
      · have h3 : x.den ≤ x.num.tdiv x.den * x.den := by
          have := Int.mul_le_mul_of_nonneg_right (show 1 ≤ x.num.tdiv x.den by omega) (show 0 ≤ x.den by omega)
          omega
        omega
    rw [lessIntImpl, if_pos (by omega), lessIntImpl, if_neg (by omega)]
  · rfl

/-- the value is at least its truncation if the remainder is not negative -/
theorem val_lt_int_iff {x : Rational} (hx : 0 < x.den) (n : Int) : val x < n ↔ x.num < n * x.den := by
  have q1 : (0 : ℚ) < x.den := by exact_mod_cast hx
  rw [val, div_lt_iff₀ q1]
  exact_mod_cast Iff.rfl

theorem lt_int_iff_floor {x : Rational} (hx : 0 < x.den) (n : Int) :
    val x < n ↔ (if x.num.tmod x.den < 0 then x.num.tdiv x.den - 1 else x.num.tdiv x.den) < n := by
  rw [val_lt_int_iff hx]
  have hb := tmod_bounds x.num hx
  have he : x.num.tdiv x.den * x.den + x.num.tmod x.den = x.num := Int.tdiv_mul_add_tmod _ _
  generalize x.num.tdiv x.den = q at *
  generalize x.num.tmod x.den = r at *
  have key : ∀ p s : Int, 0 ≤ s → s < x.den → p * x.den + s = x.num → (x.num < n * x.den ↔ p < n) := by
    intro p s h1 h2 h3
    constructor
    · intro h
      by_contra hc
      have := Int.mul_le_mul_of_nonneg_right (show n ≤ p by omega) (show 0 ≤ x.den by omega)
      omega
    · intro h
      have := Int.mul_le_mul_of_nonneg_right (show p + 1 ≤ n by omega) (show 0 ≤ x.den by omega)
      rw [Int.add_mul] at this
      omega
  split
  · exact key (q - 1) (r + x.den) (by omega) (by omega) (by rw [← he]; ring)
  · exact key q r (by omega) (by omega) he

/-- comparisons with an integer are right if the rational is not negative or is an integer -/
theorem C32_order_int_partial {x : Rational} (hx : Normal x) (n : Int) (h : 0 ≤ val x ∨ x.den = 1) :
    (∃ b, lessRI x n = some b ∧ (b = true ↔ val x < n)) ∧
    (∃ b, lessIR n x = some b ∧ (b = true ↔ n < val x)) ∧
    (∃ b, greaterRI x n = some b ∧ (b = true ↔ val x > n)) ∧
    (∃ b, greaterIR n x = some b ∧ (b = true ↔ n > val x)) ∧
    (∃ b, lessEqRI x n = some b ∧ (b = true ↔ val x ≤ n)) ∧
    (∃ b, lessEqIR n x = some b ∧ (b = true ↔ n ≤ val x)) ∧
    (∃ b, greaterEqRI x n = some b ∧ (b = true ↔ val x ≥ n)) ∧
    (∃ b, greaterEqIR n x = some b ∧ (b = true ↔ n ≥ val x)) := by
  have hr : ¬ x.num.tmod x.den < 0 := by
    rcases h with h | h
    · have q1 : (0 : ℚ) < x.den := by exact_mod_cast hx.1
      rw [val, le_div_iff₀ q1, zero_mul] at h
      have := Int.tmod_nonneg x.den (show 0 ≤ x.num by exact_mod_cast h)
      omega
    · rw [h, Int.tmod_one]; omega
  have e1 : lessRI x n = some (decide (val x < n)) := by
    rw [lessRI_eq hx.1, if_neg hr]
    congr 1
    apply decide_eq_decide.2
    rw [lt_int_iff_floor hx.1, if_neg hr]
  have e2 : lessIR n x = some (decide ((n : ℚ) < val x)) := by
    rw [lessIR]
    by_cases he : eqInt x n = true
    · rw [if_pos he, (C32_eq_int hx n).1 he]; simp
    · rw [if_neg he, e1]
      rw [C32_eq_int hx n] at he
      simp only [Option.bind_eq_bind, Option.bind_some]
      congr 1
      rw [← decide_not]
      apply decide_eq_decide.2
      rw [not_lt]
      exact ⟨fun h => lt_of_le_of_ne h (Ne.symm he), le_of_lt⟩
  refine ⟨⟨_, e1, by simp⟩, ⟨_, e2, by simp⟩, ⟨_, e2, by simp⟩, ⟨_, e1, by simp⟩, ⟨_, by rw [lessEqRI, e2]; rfl, by simp⟩,
    ⟨_, by rw [lessEqIR, e1]; rfl, by simp⟩, ⟨_, by rw [greaterEqRI, e1]; rfl, by simp⟩,
    ⟨_, by rw [greaterEqIR, e2]; rfl, by simp⟩⟩

/-- `rational < int` is wrong exactly for a negative `x` that is not an integer, when the integer lies above `x` by at most
the denominator (counted from the next smaller integer) -/
theorem C32_less_int_wrong {x : Rational} (hx : Normal x) (n : Int) :
    ∃ b, lessRI x n = some b ∧ ((b = true ↔ val x < n) ↔
      ¬ (x.num.tmod x.den < 0 ∧ x.num.tdiv x.den - 1 < n ∧ n ≤ x.num.tdiv x.den - 1 + x.den)) := by
  refine ⟨_, lessRI_eq hx.1 n, ?_⟩
  rw [lt_int_iff_floor hx.1, decide_eq_true_eq]
  have := hx.1
  split <;> omega

/-- `-1/2 < 0` is false in the code -/
theorem C32_less_int_false :
    ¬ ∀ x, Normal x → ∀ n : Int, ∃ b, lessRI x n = some b ∧ (b = true ↔ val x < n) := by
  intro h
  have hx : Normal ⟨-1, 2⟩ := normal_iff.2 ⟨by decide, ⟨1, 1, by decide⟩⟩
  obtain ⟨b, h1, h2⟩ := h ⟨-1, 2⟩ hx 0
  rw [lessRI_eq (by decide)] at h1
  obtain rfl : false = b := Option.some.inj h1
  norm_num [val] at h2

/-- and `-1/2 >= 0`, `0 < -1/2` are true -/
theorem C32_int_less_false :
    ¬ ∀ x, Normal x → ∀ n : Int, ∃ b, lessIR n x = some b ∧ (b = true ↔ (n : ℚ) < val x) := by
  intro h
  have hx : Normal ⟨-1, 2⟩ := normal_iff.2 ⟨by decide, ⟨1, 1, by decide⟩⟩
  obtain ⟨b, h1, h2⟩ := h ⟨-1, 2⟩ hx 0
  rw [lessIR, lessRI_eq (by decide)] at h1
  obtain rfl : true = b := Option.some.inj h1
  norm_num [val] at h2

/-- non-vacuity: `-7/3 < -9/4` -/
example : ∃ b, less ⟨-7, 3⟩ ⟨-9, 4⟩ = some b ∧ b = true := by
  obtain ⟨b, h1, h2⟩ := (C32_order (x := ⟨-7, 3⟩) (y := ⟨-9, 4⟩) (normal_iff.2 ⟨by decide, ⟨-1, -2, by decide⟩⟩)
    (normal_iff.2 ⟨by decide, ⟨-1, -2, by decide⟩⟩)).1
  exact ⟨b, h1, h2.2 (by norm_num [val])⟩

end Sprout
