import Verif.Model.DarkObj
import Mathlib.Algebra.Order.Floor.Semiring
import Mathlib.Data.Real.Archimedean

/-!
# Colours, materials, textures and lights of the ray tracer

`sprout/darkroom/colors/rgb.hpp`, `materials/interpolation.hpp`, `materials/plaid.hpp`, `materials/texture_map.hpp`, `materials/uniform.hpp`,
`textures/texture.hpp`, `lights/ambient_light.hpp`, `lights/parallel_light.hpp`, `lights/point_light.hpp`, `lights/calculate.hpp`.

Simplifications as in `Verif/Model/DarkVec.lean`; a conversion of a number that is not negative to an unsigned type cuts off the
fraction, its overflow is not modelled.
-/

namespace Sprout.Dark

/-- `rgb_f_t` (rgb.hpp 101) -/
@[ext] structure Col where
  r : ℝ
  g : ℝ
  b : ℝ

/-- `mul(lhs, rhs)` (rgb.hpp 112-119) -/
def Col.mul (c : Col) (k : ℝ) : Col := ⟨c.r * k, c.g * k, c.b * k⟩

/-- `mul(lhs, rhs, tail...)` (rgb.hpp 122-127) -/
def Col.muls (c : Col) (k : ℝ) : List ℝ → Col
  | [] => c.mul k
  | k' :: ks => (c.mul k).muls k' ks

/-- `add(lhs, rhs)` (rgb.hpp 133-140) -/
def Col.add (c d : Col) : Col := ⟨c.r + d.r, c.g + d.g, c.b + d.b⟩

/-- `add(lhs, rhs, tail...)` (rgb.hpp 143-148) -/
def Col.adds (c d : Col) : List Col → Col
  | [] => c.add d
  | e :: es => (c.add d).adds e es

/-- `filter(lhs, rhs)` (rgb.hpp 154-161) -/
def Col.filter (c d : Col) : Col := ⟨c.r * d.r, c.g * d.g, c.b * d.b⟩

/-- `filter(lhs, rhs, tail...)` (rgb.hpp 164-169) -/
def Col.filters (c d : Col) : List Col → Col
  | [] => c.filter d
  | e :: es => (c.filter d).filters e es

/-- a component of `rgb_f_to_rgb` (rgb.hpp 179-189); `mx` is the largest value of the unsigned component type -/
noncomputable def toUnit (mx : ℕ) (c : ℝ) : ℕ := if c < 0 then 0 else if c > 1 then mx else ⌊c * mx⌋₊

/-- `rgb_f_to_rgb` (rgb.hpp 176-191) -/
noncomputable def toRgb (mx : ℕ) (c : Col) : ℕ × ℕ × ℕ := (toUnit mx c.r, toUnit mx c.g, toUnit mx c.b)

/-- `bilinear_interpolate` (interpolation.hpp 35-56) -/
def bilinear (c00 c01 c10 c11 : Col) (u v : ℝ) : Col :=
  (((c00.mul (1 - u)).add (c01.mul u)).mul (1 - v)).add (((c10.mul (1 - u)).add (c11.mul u)).mul v)

/-- `sprout::fmod`: the remainder has the sign of the dividend -/
noncomputable def fmod (x y : ℝ) : ℝ := x - y * (if x / y < 0 then (⌈x / y⌉ : ℝ) else (⌊x / y⌋ : ℝ))

/-- `calculate_1` of `plaid_element` (plaid.hpp 37-39) -/
noncomputable def plaid1 {α : Type} (e1 e2 : α) (u v : ℝ) : α := if (u ≥ 0 ∧ v ≥ 0) ∨ (u < 0 ∧ v < 0) then e1 else e2

/-- a coordinate in `plaid_element::operator()` (plaid.hpp 50-54, 56-60) -/
noncomputable def plaidCoord (s u : ℝ) : ℝ := (if u < 0 then s + fmod u s else fmod u s) - s / 2

/-- `plaid_element::operator()` (plaid.hpp 48-62) -/
noncomputable def plaid {α : Type} (e1 e2 : α) (s u v : ℝ) : α := plaid1 e1 e2 (plaidCoord s u) (plaidCoord s v)

/-- `uniform_element::operator()` (uniform.hpp 32-34) -/
def uniform {α : Type} (e : α) (_u _v : ℝ) : α := e

/-- `image_type` (texture.hpp 58-98): width, height and the pixels row by row -/
structure Tex where
  w : ℕ
  h : ℕ
  px : List Col

/-- a pixel of the constructor of `image_type` (texture.hpp 73-77) -/
noncomputable def decode (e : ℕ) : Col := ⟨((e >>> 16 &&& 0xFF : ℕ) : ℝ) / 0xFF, ((e >>> 8 &&& 0xFF : ℕ) : ℝ) / 0xFF, ((e &&& 0xFF : ℕ) : ℝ) / 0xFF⟩

/-- the constructor of `image_type` (texture.hpp 71-81); `none` if the number of pixels is wrong -/
noncomputable def makeTex (w h : ℕ) (elems : List ℕ) : Option Tex := if elems.length = w * h then some ⟨w, h, elems.map decode⟩ else none

/-- `image_type::operator()` (texture.hpp 83-85) -/
def Tex.at (t : Tex) (x y : ℕ) : Option Col := t.px[y * t.w + x]?

/-- `texture_map` (texture_map.hpp 47-53); `nearest` and `tile` stand for the enumerations (56-74) -/
structure TexMap where
  tex : Tex
  scale : ℝ
  offU : ℝ
  offV : ℝ
  dflt : Col
  nearest : Bool
  tile : Bool

/-- an index of the tiled texture (texture_map.hpp 79-81, 83-85) -/
noncomputable def tileIndex (n : ℕ) (x : ℝ) : ℕ := if x < 0 then n - 1 - ⌊-x⌋₊ % n else ⌊x⌋₊ % n

/-- `get_color` (texture_map.hpp 76-92) -/
noncomputable def TexMap.getColor (t : TexMap) (x y : ℝ) : Option Col :=
  if t.tile then
    if t.tex.w = 0 ∨ t.tex.h = 0 then none
    else t.tex.at (tileIndex t.tex.w x) (tileIndex t.tex.h y)
  else if x < 0 ∨ x ≥ t.tex.w ∨ y < 0 ∨ y ≥ t.tex.h then some t.dflt
  else t.tex.at ⌊x⌋₊ ⌊y⌋₊

/-- `calculate_bilinear_1` (texture_map.hpp 100-110) -/
noncomputable def TexMap.bilinear1 (t : TexMap) (x x0 y y0 : ℝ) : Option Col := do
  let c00 ← t.getColor x0 y0
  let c01 ← t.getColor (x0 + 1) y0
  let c10 ← t.getColor x0 (y0 + 1)
  let c11 ← t.getColor (x0 + 1) (y0 + 1)
  some (bilinear c00 c01 c10 c11 (x - x0) (y - y0))

/-- `calc` (texture_map.hpp 95-97, 113-118, 121-125) -/
noncomputable def TexMap.calc (t : TexMap) (x y : ℝ) : Option Col :=
  if t.nearest then t.getColor x y else t.bilinear1 x ⌊x⌋ y ⌊y⌋

/-- `operator()` (texture_map.hpp 144-149) -/
noncomputable def TexMap.call (t : TexMap) (u v : ℝ) : Option Col :=
  if t.scale = 0 then none
  else t.calc ((u - t.offU + t.scale / 2) / t.scale * t.tex.w) ((-(v - t.offV) + t.scale / 2) / t.scale * t.tex.h)

/-- the type of an argument for the scale -/
inductive ScaleTy | float | double | longDouble
  deriving DecidableEq

/-- `make_plaid(elem1, elem2, scale)` (plaid.hpp 72-76): the result type is `plaid_element<Element>`, for the scale type `double`; there is
no conversion from another `plaid_element<Element, Unit>` -/
noncomputable def makePlaid {α : Type} (ty : ScaleTy) (e1 e2 : α) (s : ℝ) : Option (ℝ → ℝ → α) :=
  if ty = .double then some (plaid e1 e2 s) else none

/-- `make_texture_map(texture, scale, offset_u, offset_v, ...)` (texture_map.hpp 159-181): the default argument for the colour is
`result_typ()` (165), which is not declared -/
def makeTexMap (tex : Tex) (scale offU offV : ℝ) (dflt : Option Col) (nearest tile : Bool) : Option TexMap := do
  let d ← dflt
  some ⟨tex, scale, offU, offV, d, nearest, tile⟩

/-- `material` (material.hpp 27); the accessors (55-147) give zero for missing components -/
structure Mat where
  color : Col
  reflection : ℝ
  alpha : ℝ
  refraction : ℝ

/-- a light: what `lights::calculate` (calculate.hpp 123-133) does with an intersection and the objects -/
abbrev Light := Isect Mat → Obj Mat → Option Col

/-- `basic_ambient_light::operator()` (ambient_light.hpp 37-42) -/
def ambientLight (col : Col) : Light := fun i _ => some (col.filter i.mat.color)

/-- `shade_1` and `shade_2` of `basic_parallel_light` (parallel_light.hpp 43-69) -/
noncomputable def parallelShade (dir : Vec) (col : Col) (i l : Isect Mat) : Col :=
  (col.filter i.mat.color).mul (if !l.does || decide (l.dist < epsilon) then max epsilon (dot dir i.normal) else 0)

/-- `basic_parallel_light` (parallel_light.hpp 71-88): the constructor, and then the call -/
noncomputable def parallelLight (dir : Vec) (col : Col) : Light := fun i objs => do
  let d ← normalize dir
  let r ← makeDetachedRay i.point d
  let l ← objs r
  some (parallelShade d col i l)

/-- `shade_3` and `shade_4` of `basic_point_light` (point_light.hpp 43-76) -/
noncomputable def pointShade (col : Col) (i : Isect Mat) (diff dir : Vec) (l : Isect Mat) : Col :=
  (col.filter i.mat.color).mul
    (if !l.does || decide (l.dist > length diff) || decide (l.dist < epsilon) then max epsilon (dot dir i.normal / (length diff + 1)) else 0)

/-- `basic_point_light::operator()` with `shade_1` and `shade_2` (point_light.hpp 79-102, 110-119) -/
noncomputable def pointLight (pos : Vec) (col : Col) : Light := fun i objs => do
  let diff := sub pos i.point
  let dir ← normalize diff
  let r ← makeDetachedRay i.point dir
  let l ← objs r
  some (pointShade col i diff dir l)

/-- `calculate_2` (calculate.hpp 80-90) -/
def sumCols (c : Col) : List Col → Col
  | [] => c
  | d :: ds => sumCols (c.add d) ds

/-- `calculate_list` and `calculate_1` (calculate.hpp 93-101, 108-113); there is no colour of an empty list -/
noncomputable def lightList (ls : List Light) : Light := fun i objs => do
  let cs ← ls.mapM fun l => l i objs
  match cs with
  | [] => none
  | c :: cs => some (sumCols c cs)

end Sprout.Dark
