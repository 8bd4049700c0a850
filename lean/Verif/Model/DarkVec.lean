import Mathlib.Analysis.Real.Sqrt

/-!
# Vectors and rays of the ray tracer

`sprout/darkroom/coords/vector.hpp`, `sprout/darkroom/rays/ray.hpp`.

Simplifications: the coordinates (`double` in `vector3d_t`) are real numbers, arithmetic and `sprout::sqrt` are exact; a division by
zero is `none` (in a constant expression it is an error). `tuples::remake<Vector>(v, a, b, c)` is the vector of `a`, `b`, `c`.
-/

namespace Sprout.Dark

/-- `vector3d_t` (vector.hpp 55) -/
@[ext] structure Vec where
  x : ℝ
  y : ℝ
  z : ℝ

/-- `is_zero` (vector.hpp 67-72) -/
noncomputable def isZero (v : Vec) : Bool := v.x == 0 && v.y == 0 && v.z == 0

/-- `length_sq` (vector.hpp 78-83) -/
def lengthSq (v : Vec) : ℝ := v.x * v.x + v.y * v.y + v.z * v.z

/-- `length` (vector.hpp 89-91) -/
noncomputable def length (v : Vec) : ℝ := Real.sqrt (lengthSq v)

/-- `add` (vector.hpp 97-104) -/
def add (a b : Vec) : Vec := ⟨a.x + b.x, a.y + b.y, a.z + b.z⟩

/-- `sub` (vector.hpp 110-117) -/
def sub (a b : Vec) : Vec := ⟨a.x - b.x, a.y - b.y, a.z - b.z⟩

/-- `scale` (vector.hpp 123-130) -/
def scale (a : Vec) (k : ℝ) : Vec := ⟨a.x * k, a.y * k, a.z * k⟩

/-- `negate` (vector.hpp 136-143) -/
def negate (a : Vec) : Vec := ⟨-a.x, -a.y, -a.z⟩

/-- `dot` (vector.hpp 149-154) -/
def dot (a b : Vec) : ℝ := a.x * b.x + a.y * b.y + a.z * b.z

/-- `cross` (vector.hpp 160-172); the second component is as in the source -/
def cross (a b : Vec) : Vec := ⟨a.y * b.z - a.z * b.y, a.y * b.x - a.x * b.y, a.x * b.y - a.y * b.x⟩

/-- `normalize_impl` (vector.hpp 179-186) -/
noncomputable def normalizeImpl (v : Vec) (len : ℝ) : Option Vec :=
  if len = 0 then none else some ⟨v.x / len, v.y / len, v.z / len⟩

/-- `normalize` (vector.hpp 190-195) -/
noncomputable def normalize (v : Vec) : Option Vec := normalizeImpl v (length v)

/-- `resize` (vector.hpp 201-206) -/
noncomputable def resize (v : Vec) (k : ℝ) : Option Vec :=
  if k = 0 then none else normalizeImpl v (length v / k)

/-- `reflect` (vector.hpp 212-217) -/
def reflect (i n : Vec) : Vec := sub i (scale n (dot i n * 2))

/-- `refract_impl_1` (vector.hpp 224-231) -/
noncomputable def refractImpl1 (i n : Vec) (eta t k : ℝ) : Option Vec :=
  if k < 0 then some ⟨0, 0, 0⟩
  else if eta = 0 then none
  else some (scale (add i (scale n (t - Real.sqrt k))) (1 / eta))

/-- `refract_impl` (vector.hpp 234-239) -/
noncomputable def refractImpl (i n : Vec) (eta t : ℝ) : Option Vec := refractImpl1 i n eta t (eta * eta + t * t - 1)

/-- `refract` (vector.hpp 243-248) -/
noncomputable def refract (i n : Vec) (eta : ℝ) : Option Vec := refractImpl i n eta (-dot i n)

/-- `ray` (ray.hpp 27-40, 54) -/
@[ext] structure Ray where
  pos : Vec
  dir : Vec

/-- `rays::point_of_intersection` (ray.hpp 61-66) -/
def pointAt (r : Ray) (dist : ℝ) : Vec := add r.pos (scale r.dir dist)

/-- `numeric_limits<double>::epsilon()` -/
noncomputable def epsilon : ℝ := 1 / 2 ^ 52

/-- `detach_position` (ray.hpp 73-81) -/
noncomputable def detachPosition (pos dir : Vec) : Option Vec := do
  let d ← resize dir (epsilon * 256)
  some (add pos d)

/-- `make_detached_ray` (ray.hpp 87-92) -/
noncomputable def makeDetachedRay (pos dir : Vec) : Option Ray := do
  let p ← detachPosition pos dir
  some ⟨p, dir⟩

end Sprout.Dark
