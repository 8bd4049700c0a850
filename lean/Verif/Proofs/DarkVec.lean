import Verif.Model.DarkVec
import Verif.Spec.Geometry
import Mathlib.Tactic.LinearCombination
import Mathlib.Tactic.FieldSimp
import Mathlib.Tactic.Positivity
import Mathlib.Tactic.NormNum

/-!
# Lemmas about the vectors of the ray tracer
-/

namespace Sprout.Dark
open Geo

/-- the coordinates -/
def Vec.p (v : Vec) : P := (v.x, v.y, v.z)

theorem Vec.p_inj {a b : Vec} (h : a.p = b.p) : a = b := by
  simp only [Vec.p, Prod.mk.injEq] at h
  exact Vec.ext h.1 h.2.1 h.2.2

theorem lengthSq_nonneg (v : Vec) : 0 ≤ lengthSq v := by unfold lengthSq; nlinarith [mul_self_nonneg v.x, mul_self_nonneg v.y, mul_self_nonneg v.z]

theorem length_mul_self (v : Vec) : length v * length v = lengthSq v := Real.mul_self_sqrt (lengthSq_nonneg v)

theorem lengthSq_eq_zero {v : Vec} : lengthSq v = 0 ↔ v = ⟨0, 0, 0⟩ := by
  constructor
  · intro h
    unfold lengthSq at h
    have hx := mul_self_nonneg v.x
    have hy := mul_self_nonneg v.y
    have hz := mul_self_nonneg v.z
    exact Vec.ext (mul_self_eq_zero.1 (by linarith)) (mul_self_eq_zero.1 (by linarith)) (mul_self_eq_zero.1 (by linarith))
  · rintro rfl; simp [lengthSq]

theorem length_eq_zero {v : Vec} : length v = 0 ↔ v = ⟨0, 0, 0⟩ := by
  rw [← lengthSq_eq_zero, ← length_mul_self]
  exact mul_self_eq_zero.symm

theorem length_nonneg (v : Vec) : 0 ≤ length v := Real.sqrt_nonneg _

theorem length_pos {v : Vec} (h : v ≠ ⟨0, 0, 0⟩) : 0 < length v :=
  lt_of_le_of_ne (length_nonneg v) fun e => h (length_eq_zero.1 e.symm)

theorem lengthSq_eq (v : Vec) : lengthSq v = Geo.inner v.p v.p := rfl

theorem dot_eq (a b : Vec) : dot a b = Geo.inner a.p b.p := rfl

theorem length_unit {v : Vec} (h : Norm1 v.p) : length v = 1 := by
  unfold length
  rw [lengthSq_eq, h, Real.sqrt_one]

theorem normalizeImpl_eq {v : Vec} {l : ℝ} (h : l ≠ 0) : normalizeImpl v l = some ⟨v.x / l, v.y / l, v.z / l⟩ := if_neg h

theorem normalize_eq {v : Vec} (h : v ≠ ⟨0, 0, 0⟩) :
    normalize v = some ⟨v.x / length v, v.y / length v, v.z / length v⟩ := if_neg fun e => h (length_eq_zero.1 e)

/-- a vector perpendicular to nothing but multiples of the unit vector `n` -/
theorem parallel_of_outer {w n : P} (hn : Norm1 n) (h : outer w n = 0) : w = mul (Geo.inner w n) n := by
  obtain ⟨w1, w2, w3⟩ := w
  obtain ⟨n1, n2, n3⟩ := n
  simp only [outer, Geo.inner, mul, Norm1, Prod.mk.injEq, Prod.mk_eq_zero] at *
  obtain ⟨h1, h2, h3⟩ := h
  refine ⟨?_, ?_, ?_⟩
  · linear_combination -w1 * hn - n3 * h2 + n2 * h3
  · linear_combination -w2 * hn + n3 * h1 - n1 * h3
  · linear_combination -w3 * hn - n2 * h1 + n1 * h2

/-- Lagrange's identity for a unit vector -/
theorem outer_self (w n : P) (hn : Norm1 n) : Geo.inner (outer w n) (outer w n) = Geo.inner w w - Geo.inner w n * Geo.inner w n := by
  simp only [outer, Geo.inner, Norm1] at *
  linear_combination (w.1 * w.1 + w.2.1 * w.2.1 + w.2.2 * w.2.2) * hn

end Sprout.Dark
