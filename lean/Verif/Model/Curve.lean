import Mathlib.Data.Real.Basic

/-!
# Curves

`sprout/math/curve/bezier.hpp`, `sprout/math/curve/catmull_rom_spline.hpp`, powers of `sprout/detail/pow.hpp`.

Simplifications: the parameter and the coordinates are real numbers; for points with integral coordinates the division by 2 is that of
integers. The conversion of the result to the type of the points (`curve_point_result`, curve_point.hpp 33-38) is not represented.
-/

namespace Sprout.Curve

/-- `pow2`, `pow3`, `pow4`, `pow5` (detail/pow.hpp 19-38) -/
def pow2 (x : ℝ) : ℝ := x * x
def pow3 (x : ℝ) : ℝ := x * x * x
def pow4 (x : ℝ) : ℝ := x * x * x * x
def pow5 (x : ℝ) : ℝ := x * x * x * x * x

/-- `bezier_impl<Points, T, 2>` (bezier.hpp 23-40) -/
def bezier2 (p0 p1 p2 : ℝ × ℝ) (t : ℝ) : ℝ × ℝ :=
  (pow2 (1 - t) * p0.1 + 2 * t * (1 - t) * p1.1 + pow2 t * p2.1,
   pow2 (1 - t) * p0.2 + 2 * t * (1 - t) * p1.2 + pow2 t * p2.2)

/-- `bezier_impl<Points, T, 3>` (bezier.hpp 41-61) -/
def bezier3 (p0 p1 p2 p3 : ℝ × ℝ) (t : ℝ) : ℝ × ℝ :=
  (pow3 (1 - t) * p0.1 + 3 * t * pow2 (1 - t) * p1.1 + 3 * pow2 t * (1 - t) * p2.1 + pow3 t * p3.1,
   pow3 (1 - t) * p0.2 + 3 * t * pow2 (1 - t) * p1.2 + 3 * pow2 t * (1 - t) * p2.2 + pow3 t * p3.2)

/-- `bezier_impl<Points, T, 4>` (bezier.hpp 62-85) -/
def bezier4 (p0 p1 p2 p3 p4 : ℝ × ℝ) (t : ℝ) : ℝ × ℝ :=
  (pow4 (1 - t) * p0.1 + 4 * t * pow3 (1 - t) * p1.1 + 6 * pow2 t * pow2 (1 - t) * p2.1 + 4 * pow3 t * (1 - t) * p3.1 + pow4 t * p4.1,
   pow4 (1 - t) * p0.2 + 4 * t * pow3 (1 - t) * p1.2 + 6 * pow2 t * pow2 (1 - t) * p2.2 + 4 * pow3 t * (1 - t) * p3.2 + pow4 t * p4.2)

/-- `bezier_impl<Points, T, 5>` (bezier.hpp 86-112) -/
def bezier5 (p0 p1 p2 p3 p4 p5 : ℝ × ℝ) (t : ℝ) : ℝ × ℝ :=
  (pow5 (1 - t) * p0.1 + 5 * t * pow4 (1 - t) * p1.1 + 10 * pow2 t * pow3 (1 - t) * p2.1 + 10 * pow3 t * pow2 (1 - t) * p3.1
    + 5 * pow4 t * (1 - t) * p4.1 + pow5 t * p5.1,
   pow5 (1 - t) * p0.2 + 5 * t * pow4 (1 - t) * p1.2 + 10 * pow2 t * pow3 (1 - t) * p2.2 + 10 * pow3 t * pow2 (1 - t) * p3.2
    + 5 * pow4 t * (1 - t) * p4.2 + pow5 t * p5.2)

/-- `bezier<N>(t, p)` (bezier.hpp 123-127, 134-138): the first `N + 1` points; there is no other specialization -/
def bezierN (N : ℕ) (p : List (ℝ × ℝ)) (t : ℝ) : Option (ℝ × ℝ) :=
  match N, p with
  | 2, p0 :: p1 :: p2 :: _ => some (bezier2 p0 p1 p2 t)
  | 3, p0 :: p1 :: p2 :: p3 :: _ => some (bezier3 p0 p1 p2 p3 t)
  | 4, p0 :: p1 :: p2 :: p3 :: p4 :: _ => some (bezier4 p0 p1 p2 p3 p4 t)
  | 5, p0 :: p1 :: p2 :: p3 :: p4 :: p5 :: _ => some (bezier5 p0 p1 p2 p3 p4 p5 t)
  | _, _ => none

/-- `bezier(t, p)` and `bezier(t, p0, p1, p2, …)` (bezier.hpp 118-122, 129-133): `N` is `tuple_size - 1` (21), in unsigned
arithmetic -/
def bezier (p : List (ℝ × ℝ)) (t : ℝ) : Option (ℝ × ℝ) := if p.length = 0 then none else bezierN (p.length - 1) p t

/-- a coordinate of `catmull_rom_spline` (catmull_rom_spline.hpp 20-40) -/
noncomputable def catmull1 (p0 p1 p2 p3 t : ℝ) : ℝ :=
  (-p0 + 3 * p1 - 3 * p2 + p3) / 2 * pow3 t + (2 * p0 - 5 * p1 + 4 * p2 - p3) / 2 * pow2 t + (-p0 + p2) / 2 * t + p1

/-- a coordinate of `catmull_rom_spline_start` (catmull_rom_spline.hpp 41-58) -/
noncomputable def catmullStart1 (p0 p1 p2 t : ℝ) : ℝ := (p0 - 2 * p1 + p2) / 2 * pow2 t + (-3 * p0 + 4 * p1 - p2) / 2 * t + p0

/-- a coordinate of `catmull_rom_spline_end` (catmull_rom_spline.hpp 59-76) -/
noncomputable def catmullEnd1 (p0 p1 p2 t : ℝ) : ℝ := (p0 - 2 * p1 + p2) / 2 * pow2 t + (-p0 + p2) / 2 * t + p1

/-- `catmull_rom_spline` (catmull_rom_spline.hpp 84-88, 100-104) -/
noncomputable def catmull (p0 p1 p2 p3 : ℝ × ℝ) (t : ℝ) : ℝ × ℝ := (catmull1 p0.1 p1.1 p2.1 p3.1 t, catmull1 p0.2 p1.2 p2.2 p3.2 t)

/-- `catmull_rom_spline_start` (catmull_rom_spline.hpp 89-93, 105-109) -/
noncomputable def catmullStart (p0 p1 p2 : ℝ × ℝ) (t : ℝ) : ℝ × ℝ := (catmullStart1 p0.1 p1.1 p2.1 t, catmullStart1 p0.2 p1.2 p2.2 t)

/-- `catmull_rom_spline_end` (catmull_rom_spline.hpp 94-98, 110-114) -/
noncomputable def catmullEnd (p0 p1 p2 : ℝ × ℝ) (t : ℝ) : ℝ × ℝ := (catmullEnd1 p0.1 p1.1 p2.1 t, catmullEnd1 p0.2 p1.2 p2.2 t)

/-- a coordinate of `catmull_rom_spline` (catmull_rom_spline.hpp 29-32, 34-37) if those of the points are integers: `/ 2` discards the
fraction -/
def catmullInt1 (p0 p1 p2 p3 : ℤ) (t : ℝ) : ℝ :=
  ((-p0 + 3 * p1 - 3 * p2 + p3).tdiv 2 : ℤ) * pow3 t + ((2 * p0 - 5 * p1 + 4 * p2 - p3).tdiv 2 : ℤ) * pow2 t
    + ((-p0 + p2).tdiv 2 : ℤ) * t + p1

end Sprout.Curve
