import Mathlib.Data.Real.Basic

/-!
# Elementary geometry of three-dimensional space, with coordinates
-/

namespace Sprout.Geo

/-- a point or a vector -/
abbrev P := ℝ × ℝ × ℝ

/-- the scalar product -/
def inner (a b : P) : ℝ := a.1 * b.1 + a.2.1 * b.2.1 + a.2.2 * b.2.2

/-- the vector product -/
def outer (a b : P) : P := (a.2.1 * b.2.2 - a.2.2 * b.2.1, a.2.2 * b.1 - a.1 * b.2.2, a.1 * b.2.1 - a.2.1 * b.1)

/-- the multiple of a vector -/
def mul (k : ℝ) (a : P) : P := (k * a.1, k * a.2.1, k * a.2.2)

/-- the vector has length 1 -/
def Norm1 (a : P) : Prop := inner a a = 1

/-- the point of the line through `p` in the direction `d` at the parameter `t` -/
def along (p d : P) (t : ℝ) : P := p + mul t d

/-- the squared distance of two points -/
def distSq (a b : P) : ℝ := inner (a - b) (a - b)

/-- the triangle with the corners `a`, `b`, `c` -/
def InTriangle (a b c q : P) : Prop := ∃ u v w : ℝ, 0 ≤ u ∧ 0 ≤ v ∧ 0 ≤ w ∧ u + v + w = 1 ∧ q = mul u a + mul v b + mul w c

end Sprout.Geo
