import Verif.Model.DarkVec
import Mathlib.Analysis.SpecialFunctions.Complex.Arg

/-!
# The objects of the ray tracer

`sprout/darkroom/objects/sphere.hpp`, `aa_plane.hpp`, `polygon/triangle.hpp`, `intersect.hpp`,
`sprout/darkroom/intersects/intersection.hpp`, `sprout/darkroom/materials/material.hpp` 167-171.

Simplifications as in `Verif/Model/DarkVec.lean`. A material image is a function of the two coordinates (`calculate_material`), `none` if
its evaluation fails. `sprout::atan2(y, x)` is the argument of the complex number `x + y i`.
-/

namespace Sprout.Dark

variable {M : Type}

/-- an image of a material: `calculate_material(mat, u, v)` (material.hpp 167-171) -/
abbrev Image (M : Type) := ℝ → ℝ → Option M

/-- `intersection` (intersection.hpp 26-33, 52-101) -/
structure Isect (M : Type) where
  does : Bool
  dist : ℝ
  point : Vec
  normal : Vec
  mat : M
  inside : Bool

/-- `atan2` -/
noncomputable def atan2 (y x : ℝ) : ℝ := Complex.arg ⟨x, y⟩

/-- `basic_sphere` (sphere.hpp 66-68) -/
structure Sphere (M : Type) where
  pos : Vec
  rad : ℝ
  mat : Image M

/-- `zweitens_1` (sphere.hpp 71-82): the side that is hit, whether there is an intersection, the distance -/
noncomputable def zweitens1 (i1 i2 : ℝ) : ℤ × Bool × ℝ :=
  (if i2 > 0 then (if i1 < 0 then -1 else 1) else 0, decide (i2 > 0), if i2 > 0 then (if i1 < 0 then i2 else i1) else -1)

/-- `zweitens` (sphere.hpp 84-89) -/
noncomputable def zweitens (neg : Bool) (b det : ℝ) : ℤ × Bool × ℝ :=
  if neg then zweitens1 (b - det) (b + det) else (0, false, -1)

/-- `drittens_1` (sphere.hpp 92-99): the point of intersection and the outer normal -/
noncomputable def Sphere.drittens1 (s : Sphere M) (q : Vec) : Option (Vec × Vec) := do
  let n ← normalize (sub q s.pos)
  some (q, n)

/-- `drittens` (sphere.hpp 102-110) -/
noncomputable def Sphere.drittens (s : Sphere M) (r : Ray) (neg : Bool) (dist : ℝ) : Option (Vec × Vec) :=
  if neg then s.drittens1 (pointAt r dist) else some (⟨0, 0, 0⟩, ⟨1, 1, 1⟩)

/-- `intersect_6` (sphere.hpp 113-141) -/
noncomputable def Sphere.intersect6 (s : Sphere M) (zwo : ℤ × Bool × ℝ) (drei : Vec × Vec) (inside : Bool) (n : Vec) :
    Option (Isect M) := do
  let m ← s.mat (atan2 n.z n.x / Real.pi) (atan2 n.y (Real.sqrt (n.x * n.x + n.z * n.z)) / (Real.pi / 2))
  some ⟨zwo.2.1, zwo.2.2, drei.1, if inside then negate n else n, m, inside⟩

/-- `intersect_5` (sphere.hpp 144-151) -/
noncomputable def Sphere.intersect5 (s : Sphere M) (r : Ray) (zwo : ℤ × Bool × ℝ) (drei : Vec × Vec) : Option (Isect M) :=
  s.intersect6 zwo drei (decide (dot drei.2 r.dir > 0)) drei.2

/-- `intersect_4` (sphere.hpp 154-164) -/
noncomputable def Sphere.intersect4 (s : Sphere M) (r : Ray) (zwo : ℤ × Bool × ℝ) : Option (Isect M) := do
  let drei ← s.drittens r zwo.2.1 zwo.2.2
  s.intersect5 r zwo drei

/-- `intersect_3` (sphere.hpp 167-176) -/
noncomputable def Sphere.intersect3 (s : Sphere M) (r : Ray) (b detSq : ℝ) : Option (Isect M) :=
  s.intersect4 r (zweitens (decide (detSq > 0)) b (if detSq > 0 then Real.sqrt detSq else 0))

/-- `intersect_2` (sphere.hpp 179-185) -/
noncomputable def Sphere.intersect2 (s : Sphere M) (r : Ray) (v : Vec) (b : ℝ) : Option (Isect M) :=
  s.intersect3 r b (b * b - lengthSq v + s.rad * s.rad)

/-- `intersect_1` (sphere.hpp 188-194) -/
noncomputable def Sphere.intersect1 (s : Sphere M) (r : Ray) (v : Vec) : Option (Isect M) := s.intersect2 r v (-dot v r.dir)

/-- `intersect` (sphere.hpp 203-208) -/
noncomputable def Sphere.intersect (s : Sphere M) (r : Ray) : Option (Isect M) := s.intersect1 r (sub r.pos s.pos)

/-- `aa_plane_direction` (aa_plane.hpp 26-33) -/
inductive Axis | x | y | z
  deriving DecidableEq

/-- `aa_plane_face` (aa_plane.hpp 37-45) -/
inductive Face | both | negative | positive | same_as_direction
  deriving DecidableEq

/-- `basic_aa_plane` (aa_plane.hpp 74-77) -/
structure Plane (M : Type) where
  axis : Axis
  val : ℝ
  mat : Image M
  face : Face

/-- `is_x() ? x : is_y() ? y : z` (aa_plane.hpp 185-192) -/
def coord (a : Axis) (v : Vec) : ℝ := if a = .x then v.x else if a = .y then v.y else v.z

/-- the material of `intersect_5` (aa_plane.hpp 102-116) -/
def Plane.material (p : Plane M) (q : Vec) : Option M :=
  if p.axis = .x then p.mat q.z q.y else if p.axis = .y then p.mat q.x q.z else p.mat q.x q.y

/-- `intersect_5` (aa_plane.hpp 93-120) -/
noncomputable def Plane.intersect5 (p : Plane M) (hitSide : ℤ) (inside does : Bool) (dist : ℝ) (q : Vec) : Option (Isect M) := do
  let m ← p.material q
  some ⟨does, dist, q,
    if p.axis = .x then ⟨if hitSide > 0 then 1 else -1, 0, 0⟩
      else if p.axis = .y then ⟨0, if hitSide > 0 then 1 else -1, 0⟩
      else ⟨0, 0, if hitSide > 0 then 1 else -1⟩,
    m, inside⟩

/-- `intersect_4` (aa_plane.hpp 123-133) -/
noncomputable def Plane.intersect4 (p : Plane M) (r : Ray) (hitSide : ℤ) (inside does : Bool) (dist : ℝ) : Option (Isect M) :=
  p.intersect5 hitSide inside does dist (if does then pointAt r dist else ⟨0, 0, 0⟩)

/-- `intersect_3` (aa_plane.hpp 136-146); `does` implies that `dirV` is not zero -/
noncomputable def Plane.intersect3 (p : Plane M) (r : Ray) (posV dirV : ℝ) (hitSide : ℤ) (inside does : Bool) : Option (Isect M) :=
  p.intersect4 r hitSide inside does (if does then (posV - p.val) / -dirV else -1)

/-- `intersect_2` (aa_plane.hpp 149-158) -/
noncomputable def Plane.intersect2 (p : Plane M) (r : Ray) (posV dirV : ℝ) (hitSide : ℤ) (inside : Bool) : Option (Isect M) :=
  p.intersect3 r posV dirV hitSide inside (decide ((hitSide > 0 ∧ dirV < 0) ∨ (hitSide < 0 ∧ dirV > 0)))

/-- `intersect_1` (aa_plane.hpp 161-172) -/
noncomputable def Plane.intersect1 (p : Plane M) (r : Ray) (posV dirV : ℝ) : Option (Isect M) :=
  p.intersect2 r posV dirV (if posV > p.val then 1 else -1)
    (match p.face with
      | .both => false
      | .negative => decide (dirV > 0)
      | .positive => decide (dirV < 0)
      | .same_as_direction => decide ((p.val > 0 ∧ dirV < 0) ∨ (p.val < 0 ∧ dirV > 0)))

/-- `intersect` (aa_plane.hpp 182-194) -/
noncomputable def Plane.intersect (p : Plane M) (r : Ray) : Option (Isect M) :=
  p.intersect1 r (coord p.axis r.pos) (coord p.axis r.dir)

/-- `basic_triangle` (triangle.hpp 51-53) -/
structure Triangle (M : Type) where
  mat : Image M
  v0 : Vec
  v1 : Vec
  v2 : Vec
  normal : Vec

/-- the constructor and `make_triangle` (triangle.hpp 140-151, 173-175) -/
noncomputable def makeTriangle (mat : Image M) (v0 v1 v2 : Vec) : Option (Triangle M) := do
  let n ← normalize (cross (sub v2 v0) (sub v1 v0))
  some ⟨mat, v0, v1, v2, n⟩

/-- `within_test` (triangle.hpp 57-64) -/
noncomputable def Triangle.within (t : Triangle M) (d0 d1 : Vec) : Bool := decide (dot (cross d0 d1) t.normal ≥ 0)

/-- `intersect_5` (triangle.hpp 67-79) -/
noncomputable def Triangle.intersect5 (t : Triangle M) (r : Ray) (does : Bool) (dist : ℝ) : Option (Isect M) := do
  let m ← t.mat 0 0
  some ⟨does, dist, if does then pointAt r dist else ⟨0, 0, 0⟩, t.normal, m, false⟩

/-- `intersect_4` (triangle.hpp 82-91) -/
noncomputable def Triangle.intersect4 (t : Triangle M) (r : Ray) (v : Vec) (does : Bool) : Option (Isect M) :=
  t.intersect5 r does (if does then length v else -1)

/-- `intersect_3` (triangle.hpp 94-113) -/
noncomputable def Triangle.intersect3 (t : Triangle M) (r : Ray) (v p : Vec) (forward : Bool) : Option (Isect M) :=
  t.intersect4 r v
    (forward && t.within (sub p t.v0) (sub t.v1 t.v0) && t.within (sub p t.v1) (sub t.v2 t.v1) && t.within (sub p t.v2) (sub t.v0 t.v2))

/-- `intersect_2` (triangle.hpp 116-129) -/
noncomputable def Triangle.intersect2 (t : Triangle M) (r : Ray) (k : ℝ) : Option (Isect M) :=
  t.intersect3 r (scale r.dir k) (add r.pos (scale r.dir k)) (decide (k ≥ 0))

/-- `intersect_1` (triangle.hpp 132-138) -/
noncomputable def Triangle.intersect1 (t : Triangle M) (r : Ray) (xpn vn : ℝ) : Option (Isect M) :=
  if vn = 0 then none else t.intersect2 r (xpn / vn)

/-- `intersect` (triangle.hpp 154-166) -/
noncomputable def Triangle.intersect (t : Triangle M) (r : Ray) : Option (Isect M) :=
  t.intersect1 r (dot (sub t.v0 r.pos) t.normal) (dot r.dir t.normal)

/-- an object: what `objects::intersect` (intersect.hpp 147-158) does with it -/
abbrev Obj (M : Type) := Ray → Option (Isect M)

/-- `comp` (intersect.hpp 95-106) -/
noncomputable def comp (a b : Isect M) : Isect M :=
  if a.does && b.does then (if a.dist < b.dist then a else b) else if a.does then a else b

/-- `intersect_list_impl<N>` (intersect.hpp 90-127) -/
noncomputable def intersectListImpl (objs : List (Obj M)) (r : Ray) : ℕ → Option (Isect M)
  | 0 => do
    let f ← objs[0]?
    f r
  | n + 1 => do
    let f ← objs[n + 1]?
    let a ← f r
    let b ← intersectListImpl objs r n
    some (comp a b)

/-- `intersect_list` (intersect.hpp 134-138); there is no element 0 of the empty tuple -/
noncomputable def intersectList (objs : List (Obj M)) : Obj M := fun r => intersectListImpl objs r (objs.length - 1)

end Sprout.Dark
