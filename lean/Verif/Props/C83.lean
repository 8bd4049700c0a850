import Verif.Model.Adaptor
import Verif.Proofs.CInt

/-!
# C83: limited::plus and limited::multiplies saturate

The common type `T` of the operands has 32 or 64 bits (`arithmetic_promote` is the type of a sum), and both operands have been
converted to it without change of value.
-/

namespace Sprout
open Adaptor

/-- the value of `T` next to `x` -/
def clampTo (T : CInt) (x : Int) : Int := if T.max < x then T.max else if x < T.min then T.min else x

private theorem has_arith {T : CInt} (hT : T.w = 32 ∨ T.w = 64) {x : Int} (h1 : T.min ≤ x) (h2 : x ≤ T.max) : T.arith x = some x :=
  CInt.arith_ok (by rcases hT with h | h <;> simp [CInt.Std, h]) ⟨h1, h2⟩

private theorem bnd {T : CInt} (hT : T.w = 32 ∨ T.w = 64) : 127 ≤ T.max ∧ T.min ≤ 0 ∧ (T.sg = true → T.min = -T.max - 1) ∧ (T.sg = false → T.min = 0) := by
  have := CInt.Std.bounds (T := T) (by rcases hT with h | h <;> simp [CInt.Std, h])
  exact ⟨this.1, this.2.1, this.2.2.2.1, this.2.2.2.2.1⟩

/-- `limited::plus(a, b)` is `a + b` where representable and the nearest value else; it is always defined. -/
theorem C83_plus (T : CInt) (hT : T.w = 32 ∨ T.w = 64) (a b : Int) (ha : T.Has a) (hb : T.Has b) : limitedPlus T a b = some (clampTo T (a + b)) := by
  obtain ⟨h1, h2, h3, h4⟩ := bnd hT
  obtain ⟨ha1, ha2⟩ := ha
  obtain ⟨hb1, hb2⟩ := hb
  have hs : T.min = -T.max - 1 ∨ T.min = 0 := by
    cases h : T.sg
    · exact .inr (h4 h)
    · exact .inl (h3 h)
  have e1 : plusAbove T a b = some (decide (T.max < a + b)) := by
    rw [plusAbove]
    split
    · rw [has_arith hT (by omega) (by omega), Option.map_some]
      congr 1
      rw [decide_eq_decide]
      omega
    · congr 1
      symm
      rw [decide_eq_false_iff_not]
      omega
  have e2 : plusBelow T a b = some (decide (a + b < T.min)) := by
    rw [plusBelow]
    split
    · rw [has_arith hT (by omega) (by omega), Option.map_some]
      congr 1
      rw [decide_eq_decide]
      omega
    · congr 1
      symm
      rw [decide_eq_false_iff_not]
      omega
  rw [limitedPlus, e1, Option.bind_some, clampTo]
  by_cases hA : T.max < a + b
  · rw [if_pos (by simpa using hA), if_pos hA]
  · rw [if_neg (by simpa using hA), if_neg hA, e2, Option.bind_some]
    by_cases hB : a + b < T.min
    · rw [if_pos (by simpa using hB), if_pos hB]
    · rw [if_neg (by simpa using hB), if_neg hB, has_arith hT (by omega) (by omega)]

example : limitedPlus .int32 2000000000 2000000000 = some 2147483647 ∧ limitedPlus .int32 (-2000000000) (-2000000000) = some (-2147483648) ∧
    limitedPlus .uint64 (2 ^ 63) (2 ^ 63) = some (2 ^ 64 - 1) := by decide

private theorem ceil_le {M x : Int} (hx : 0 < x) (y : Int) : M / x + (if M % x = 0 then 0 else 1) ≤ y ↔ M ≤ x * y := by
  have hd := Int.mul_ediv_add_emod M x
  have h0 := Int.emod_nonneg M (show x ≠ 0 by omega)
  have h1 := Int.emod_lt_of_pos M hx
  generalize M / x = q at *
  generalize M % x = r at *
  subst hd
  constructor
  · intro h
    split at h
    · have : x * q ≤ x * y := Int.mul_le_mul_of_nonneg_left (by omega) (by omega)
      omega
    · have : x * (q + 1) ≤ x * y := Int.mul_le_mul_of_nonneg_left (by omega) (by omega)
      rw [Int.mul_add] at this
      omega
  · intro h
    by_contra hc
    split at hc
    · have : x * (y + 1) ≤ x * q := Int.mul_le_mul_of_nonneg_left (by omega) (by omega)
      rw [Int.mul_add] at this
      omega
    · have : x * y ≤ x * q := Int.mul_le_mul_of_nonneg_left (by omega) (by omega)
      omega

private theorem quot_max {T : CInt} (hT : T.w = 32 ∨ T.w = 64) {a : Int} (ha : 0 < a) :
    limitedQuot T T.max a = some (T.max / a + if T.max % a = 0 then 0 else 1) := by
  obtain ⟨h1, h2, -, -⟩ := bnd hT
  have hc := (ceil_le (M := T.max) ha T.max).2 (by
    have : 1 * T.max ≤ a * T.max := Int.mul_le_mul_of_nonneg_right (by omega) (by omega)
    omega)
  have hq0 : 0 ≤ T.max / a := Int.ediv_nonneg (by omega) (by omega)
  have h0 := Int.emod_nonneg T.max (show a ≠ 0 by omega)
  have hm : T.max % a ≤ T.max := by
    have hd := Int.mul_ediv_add_emod T.max a
    have : 0 ≤ a * (T.max / a) := Int.mul_nonneg (by omega) hq0
    omega
  have hq1 : T.max / a ≤ T.max := by split at hc <;> omega
  rw [limitedQuot, CInt.div, CInt.rem, if_neg (by omega), if_neg (by omega), Int.tdiv_eq_ediv_of_nonneg (by omega), Int.tmod_eq_emod_of_nonneg (by omega),
    has_arith hT (by omega) hq1, has_arith hT (by omega) hm]
  simp only [Option.bind_eq_bind, Option.bind_some]
  exact has_arith hT (by split <;> omega) hc

private theorem quot_min {T : CInt} (hT : T.w = 32 ∨ T.w = 64) (hs : T.sg = true) {c : Int} (hc : 1 < c) :
    limitedQuot T T.min (-c) = some (-T.min / c + if -T.min % c = 0 then 0 else 1) := by
  obtain ⟨h1, h2, h3, -⟩ := bnd hT
  have h3 := h3 hs
  obtain ⟨K, hK⟩ : ∃ K, -T.min = K := ⟨_, rfl⟩
  obtain hK' : T.min = -K := by omega
  rw [hK] 
  have hcl := (ceil_le (M := K) (show 0 < c by omega) T.max).2 (by
    have : 2 * T.max ≤ c * T.max := Int.mul_le_mul_of_nonneg_right (by omega) (by omega)
    omega)
  have hq0 : 0 ≤ K / c := Int.ediv_nonneg (by omega) (by omega)
  have h0 := Int.emod_nonneg K (show c ≠ 0 by omega)
  have hm : K % c ≤ K := by
    have hd := Int.mul_ediv_add_emod K c
    have : 0 ≤ c * (K / c) := Int.mul_nonneg (by omega) hq0
    omega
  have hq1 : K / c ≤ T.max := by split at hcl <;> omega
  rw [limitedQuot, CInt.div, CInt.rem, if_neg (by omega), if_neg (by omega), hK', Int.neg_tdiv, Int.tdiv_neg, Int.neg_neg, Int.neg_tmod, Int.tmod_neg,
    Int.tdiv_eq_ediv_of_nonneg (by omega), Int.tmod_eq_emod_of_nonneg (by omega), has_arith hT (by omega) hq1, has_arith hT (by omega) (by omega)]
  simp only [Option.bind_eq_bind, Option.bind_some, Int.neg_eq_zero]
  exact has_arith hT (by split <;> omega) hcl

private theorem quot_min_ub {T : CInt} (hT : T.w = 32 ∨ T.w = 64) (hs : T.sg = true) : limitedQuot T T.min (-1) = none := by
  obtain ⟨h1, h2, h3, -⟩ := bnd hT
  have h3 := h3 hs
  have : T.arith (-T.min) = none := by
    rw [CInt.arith, if_neg (by omega), if_pos hs, if_neg]
    rintro ⟨-, h⟩
    omega
  rw [limitedQuot, CInt.div, if_neg (by omega), Int.tdiv_neg, Int.tdiv_one, this]
  rfl

/-- the operands for which `min() / -1` is computed -/
def MulBad (a b : Int) : Prop := (b = -1 ∧ a ≠ 0) ∨ (a = -1 ∧ 0 < b)

/-- `limited::multiplies(a, b)` is `a * b` where representable and the nearest value else. *Partial*: not for `MulBad a b`. -/
theorem C83_multiplies_partial (T : CInt) (hT : T.w = 32 ∨ T.w = 64) (a b : Int) (ha : T.Has a) (hb : T.Has b) (h : ¬MulBad a b) :
    limitedMul T a b = some (clampTo T (a * b)) := by
  obtain ⟨h1, h2, h3, h4⟩ := bnd hT
  obtain ⟨ha1, ha2⟩ := ha
  obtain ⟨hb1, hb2⟩ := hb
  unfold MulBad at h
  have hsg : ∀ x, T.min ≤ x → x < 0 → T.sg = true := by
    intro x hx hx'
    cases hh : T.sg
    · have := h4 hh
      omega
    · rfl
  rw [limitedMul, clampTo]
  rcases Int.lt_trichotomy a 0 with ha0 | ha0 | ha0
  · have hs := hsg a ha1 ha0
    have h3 := h3 hs
    rw [mulTest1, if_neg (by omega), Option.bind_some, if_neg (by decide), mulTest2, if_neg (by omega), Option.bind_some, if_neg (by decide)]
    rcases Int.lt_trichotomy b 0 with hb0 | hb0 | hb0
    · rw [mulTest3, if_neg (by omega), Option.bind_some, if_neg (by decide), mulTest4, if_pos (by omega)]
      obtain ⟨c, rfl⟩ : ∃ c, b = -c := ⟨-b, by omega⟩
      obtain ⟨d, rfl⟩ : ∃ d, a = -d := ⟨-a, by omega⟩
      have hcl := ceil_le (M := -T.min) (show 0 < c by omega)
      have hmax := (hcl T.max).2 (by
        have : 2 * T.max ≤ c * T.max := Int.mul_le_mul_of_nonneg_right (by omega) (by omega)
        omega)
      have hq0 : 0 ≤ -T.min / c := Int.ediv_nonneg (by omega) (by omega)
      rw [quot_min hT hs (by omega), Option.bind_some, has_arith hT (by split at hmax <;> rename_i hh <;> simp only [hh, if_true, if_false] <;> omega)
        (by split <;> omega), Option.map_some, Option.bind_some, Int.neg_mul_neg]
      have hp : 0 < d * c := Int.mul_pos (by omega) (by omega)
      by_cases hx : T.max < d * c
      · have := (hcl d).2 (by rw [Int.mul_comm]; omega)
        rw [if_pos hx, if_pos]
        rw [decide_eq_true_iff]
        omega
      · have : ¬_ := fun h' => hx (by have := (hcl d).1 h'; rw [Int.mul_comm] at this; omega)
        rw [if_neg hx, if_neg, if_neg (by omega), has_arith hT (by omega) (by omega)]
        rw [decide_eq_true_iff]
        omega
    · subst hb0
      rw [mulTest3, if_neg (by omega), Option.bind_some, if_neg (by decide), mulTest4, if_neg (by omega), Option.bind_some, if_neg (by decide),
        Int.mul_zero, if_neg (by omega), if_neg (by omega), has_arith hT (by omega) (by omega)]
    · rw [mulTest3, if_pos (by omega)]
      obtain ⟨d, rfl⟩ : ∃ d, a = -d := ⟨-a, by omega⟩
      have hcl := ceil_le (M := -T.min) (show 0 < d by omega) b
      have hp : 0 < d * b := Int.mul_pos (by omega) (by omega)
      rw [quot_min hT hs (by omega), Option.map_some, Option.bind_some, Int.neg_mul, if_neg (show ¬T.max < -(d * b) by omega)]
      by_cases hx : -T.min ≤ d * b
      · have := hcl.2 hx
        rw [if_pos (by rw [decide_eq_true_iff]; exact this)]
        split
        · rfl
        · congr 1; omega
      · have : ¬_ := fun h' => hx (hcl.1 h')
        rw [if_neg (by rw [decide_eq_true_iff]; exact this), if_neg (by omega), mulTest4, if_neg (by omega), Option.bind_some, if_neg (by decide),
          has_arith hT (by omega) (by omega)]
  · subst ha0
    rw [mulTest1, if_neg (by omega), Option.bind_some, if_neg (by decide), mulTest2, if_neg (by omega), Option.bind_some, if_neg (by decide),
      mulTest3, if_neg (by omega), Option.bind_some, if_neg (by decide), mulTest4, if_neg (by omega), Option.bind_some, if_neg (by decide),
      Int.zero_mul, if_neg (by omega), if_neg (by omega), has_arith hT (by omega) (by omega)]
  · rcases Int.lt_trichotomy b 0 with hb0 | hb0 | hb0
    · have hs := hsg b hb1 hb0
      have h3 := h3 hs
      rw [mulTest1, if_neg (by omega), Option.bind_some, if_neg (by decide), mulTest2, if_pos (by omega)]
      obtain ⟨c, rfl⟩ : ∃ c, b = -c := ⟨-b, by omega⟩
      have hcl := ceil_le (M := -T.min) (show 0 < c by omega) a
      have hp : 0 < c * a := Int.mul_pos (by omega) (by omega)
      rw [quot_min hT hs (by omega), Option.map_some, Option.bind_some, Int.mul_neg, Int.mul_comm a, if_neg (show ¬T.max < -(c * a) by omega)]
      by_cases hx : -T.min ≤ c * a
      · have := hcl.2 hx
        rw [if_pos (by rw [decide_eq_true_iff]; exact this)]
        split
        · rfl
        · congr 1; omega
      · have : ¬_ := fun h' => hx (hcl.1 h')
        rw [if_neg (by rw [decide_eq_true_iff]; exact this), if_neg (by omega), mulTest3, if_neg (by omega), Option.bind_some, if_neg (by decide), mulTest4,
          if_neg (by omega), Option.bind_some, if_neg (by decide), has_arith hT (by omega) (by omega)]
    · subst hb0
      rw [mulTest1, if_neg (by omega), Option.bind_some, if_neg (by decide), mulTest2, if_neg (by omega), Option.bind_some, if_neg (by decide),
        mulTest3, if_neg (by omega), Option.bind_some, if_neg (by decide), mulTest4, if_neg (by omega), Option.bind_some, if_neg (by decide),
        Int.mul_zero, if_neg (by omega), if_neg (by omega), has_arith hT (by omega) (by omega)]
    · rw [mulTest1, if_pos (by omega)]
      have hcl := ceil_le (M := T.max) ha0 b
      have hp : 0 < a * b := Int.mul_pos (by omega) (by omega)
      rw [quot_max hT ha0, Option.map_some, Option.bind_some]
      by_cases hx : T.max ≤ a * b
      · have := hcl.2 hx
        rw [if_pos (by rw [decide_eq_true_iff]; exact this)]
        split
        · rfl
        · rw [if_neg (by omega)]; congr 1; omega
      · have : ¬_ := fun h' => hx (hcl.1 h')
        rw [if_neg (by rw [decide_eq_true_iff]; exact this), if_neg (by omega), if_neg (by omega), mulTest2, if_neg (by omega), Option.bind_some, if_neg (by decide),
          mulTest3, if_neg (by omega), Option.bind_some, if_neg (by decide), mulTest4, if_neg (by omega), Option.bind_some, if_neg (by decide),
          has_arith hT (by omega) (by omega)]

example : limitedMul .int32 100000 100000 = some 2147483647 ∧ limitedMul .int32 (-100000) 100000 = some (-2147483648) ∧
    limitedMul .int32 (-100000) (-100000) = some 2147483647 ∧ limitedMul .int32 (-7) 6 = some (-42) ∧ limitedMul .int32 (-1) (-5) = some 5 := by decide

/-- For these operands it is undefined, `1 * -1` among them. -/
theorem C83_multiplies_refuted (T : CInt) (hT : T.w = 32 ∨ T.w = 64) (hs : T.sg = true) (a b : Int) (h : MulBad a b) : limitedMul T a b = none := by
  have hu := quot_min_ub hT hs
  rw [limitedMul]
  rcases h with ⟨rfl, h⟩ | ⟨rfl, h⟩
  · rw [mulTest1, if_neg (by omega), Option.bind_some, if_neg (by decide)]
    rcases Int.lt_or_gt_of_ne h with h | h
    · rw [mulTest2, if_neg (by omega), Option.bind_some, if_neg (by decide), mulTest3, if_neg (by omega), Option.bind_some, if_neg (by decide), mulTest4,
        if_pos (by omega), hu]
      rfl
    · rw [mulTest2, if_pos (by omega), hu]
      rfl
  · rw [mulTest1, if_neg (by omega), Option.bind_some, if_neg (by decide), mulTest2, if_neg (by omega), Option.bind_some, if_neg (by decide), mulTest3,
      if_pos (by omega), hu]
    rfl

example : limitedMul .int32 1 (-1) = none ∧ limitedMul .int64 (-1) 2 = none := by decide

end Sprout
