import Verif.Model.DarkShade
import Mathlib.Analysis.SpecialFunctions.Trigonometric.Basic

/-!
# Camera, renderer and pixels of the ray tracer

`sprout/darkroom/cameras/simple_camera.hpp`, `renderers/infinity.hpp`, `renderers/whitted_style.hpp`, `tracers/raytracer.hpp`,
`pixels/generate.hpp`.

Simplifications: real numbers as in `DarkVec`; sizes are natural numbers without a bound. `Refractions` is the tuple of one number that
`raytracer` uses, `tuples::remake<Refractions>(refracs, n)` is the tuple of `n`. The camera that is passed through the renderer is not
used by it.
-/

namespace Sprout.Dark

/-- `angle_of_view_reference` (angle_of_view.hpp 21-29) -/
inductive ViewRef | long_side | short_side | width | height
  deriving DecidableEq

/-- `basic_simple_camera` (simple_camera.hpp 33-37) -/
structure Camera where
  far : ℝ
  ref : ViewRef
  pos : Vec
  fix : Vec
  rotate : ℝ

/-- `transform_1` (simple_camera.hpp 39-49) -/
noncomputable def transform1 (c : Vec) (u v l : ℝ) : Option Vec :=
  if l = 0 then none else some (add c ⟨c.z * u / l, v, -c.x * u / l⟩)

/-- `transform` (simple_camera.hpp 50-61) -/
noncomputable def Camera.transform (m : Camera) (c : Vec) (u v : ℝ) : Option Vec :=
  transform1 c (u * Real.cos m.rotate - v * Real.sin m.rotate) (u * Real.sin m.rotate + v * Real.cos m.rotate) (Real.sqrt (c.x * c.x + c.z * c.z))

/-- `reference_width` (simple_camera.hpp 62-78) -/
noncomputable def Camera.referenceWidth (m : Camera) (x y w h : ℕ) (rate : ℝ) : Option Vec := do
  let c ← resize (sub m.fix m.pos) m.far
  m.transform c ((x : ℝ) / w - 0.5) (-(((y : ℝ) / h - 0.5) * rate))

/-- `reference_height` (simple_camera.hpp 79-95) -/
noncomputable def Camera.referenceHeight (m : Camera) (x y w h : ℕ) (rate : ℝ) : Option Vec := do
  let c ← resize (sub m.fix m.pos) m.far
  m.transform c (((x : ℝ) / w - 0.5) * rate) (-((y : ℝ) / h - 0.5))

/-- the vector that `operator()` normalizes (simple_camera.hpp 116-120) -/
noncomputable def Camera.view (m : Camera) (x y w h : ℕ) : Option Vec :=
  if w = 0 ∨ h = 0 then none
  else if (m.ref = .long_side ∧ w ≥ h) ∨ (m.ref = .short_side ∧ w < h) ∨ m.ref = .width then m.referenceWidth x y w h ((h : ℝ) / w)
  else m.referenceHeight x y w h ((w : ℝ) / h)

/-- `operator()` (simple_camera.hpp 110-123) -/
noncomputable def Camera.call (m : Camera) (x y w h : ℕ) : Option Ray := do
  let v ← m.view x y w h
  let d ← normalize v
  some ⟨m.pos, d⟩

/-- `normal_to_color` and `direction_gradation` (infinity.hpp 25-31, 38-42) -/
noncomputable def directionGradation (d : Vec) : Col := ⟨0.5 + d.x * 0.5, 0.5 + d.y * 0.5, 0.5 + d.z * 0.5⟩

/-- `uniform_color::operator()` (infinity.hpp 69-73) -/
def uniformColor (c : Col) (_ : Vec) : Col := c

/-- the rest of the recursion: `renderers::calculate` with `depth_max - 1`, given the refractive index and the ray; `none` if `depth_max`
is 0 -/
abbrev Deeper := Option (ℝ → Ray → Option Col)

/-- `whitted_mirror` (whitted_style.hpp 47-98) -/
noncomputable def whittedMirror (next : Deeper) (r : Ray) (i : Isect Mat) (refr : ℝ) : Option Col :=
  match next with
  | none => some ⟨0, 0, 0⟩
  | some f =>
    if i.does = true ∧ i.mat.reflection > epsilon then do
      let p ← detachPosition i.point (reflect r.dir i.normal)
      f refr ⟨p, reflect r.dir i.normal⟩
    else some ⟨0, 0, 0⟩

/-- `whitted_transmit::color_1` (whitted_style.hpp 111-151) -/
noncomputable def whittedTransmit1 (f : ℝ → Ray → Option Col) (i : Isect Mat) (d : Vec) : Option (Col × Bool) :=
  if isZero d then some (⟨0, 0, 0⟩, true)
  else if i.inside then do
    let p ← detachPosition i.point d
    let c ← f 1 ⟨p, d⟩
    some (c, false)
  else do
    let p ← detachPosition i.point d
    let c ← f i.mat.refraction ⟨p, d⟩
    some (c, false)

/-- the argument `eta` (whitted_style.hpp 184-188) -/
noncomputable def whittedEta (i : Isect Mat) (refr : ℝ) : Option ℝ :=
  if i.inside then some (refr / i.mat.refraction) else if refr = 0 then none else some (i.mat.refraction / refr)

/-- `whitted_transmit::operator()` (whitted_style.hpp 158-193) -/
noncomputable def whittedTransmit (next : Deeper) (r : Ray) (i : Isect Mat) (refr : ℝ) : Option (Col × Bool) :=
  match next with
  | none => some (⟨0, 0, 0⟩, false)
  | some f =>
    if i.does = true ∧ i.mat.alpha > epsilon ∧ i.mat.refraction > epsilon then do
      let eta ← whittedEta i refr
      let d ← refract r.dir i.normal eta
      whittedTransmit1 f i d
    else some (⟨0, 0, 0⟩, false)

/-- `whitted_style::color_3` (whitted_style.hpp 206-236) -/
noncomputable def whittedColor (inf : Vec → Col) (r : Ray) (i : Isect Mat) (diffuse mirror : Col) (transmit : Col × Bool) : Col :=
  if i.does then
    Col.adds (diffuse.mul (1 - i.mat.reflection - i.mat.alpha))
      (mirror.mul (if !transmit.2 then i.mat.reflection else i.mat.reflection + i.mat.alpha))
      [transmit.1.mul (if !transmit.2 then i.mat.alpha else 0)]
  else inf r.dir

/-- what is rendered: the objects, the lights, and the colour at infinity -/
structure Scene where
  objs : Obj Mat
  lights : Light
  inf : Vec → Col

/-- `operator()` with `color_1` and `color_2` (whitted_style.hpp 237-280, 293-304) -/
noncomputable def Scene.shade (s : Scene) (next : Deeper) (refr : ℝ) (r : Ray) : Option Col := do
  let i ← s.objs r
  let diffuse ← s.lights i s.objs
  let m ← whittedMirror next r i refr
  let t ← whittedTransmit next r i refr
  some (whittedColor s.inf r i diffuse m t)

/-- `whitted_style::operator()` for the depth `depth_max` (whitted_style.hpp 293-304) -/
noncomputable def Scene.render (s : Scene) : ℕ → ℝ → Ray → Option Col
  | 0 => s.shade none
  | d + 1 => s.shade (some (s.render d))

/-- `raytracer::operator()` without refractions (raytracer.hpp 43-55, whitted_style.hpp 320-331) -/
noncomputable def Scene.trace (s : Scene) (m : Camera) (x y w h depth : ℕ) : Option Col := do
  let r ← m.call x y w h
  s.render depth 1 r

/-- `generate_impl_line` (generate.hpp 35-62) -/
noncomputable def generateLine (mx : ℕ) (tr : ℕ → ℕ → Option Col) (x y n : ℕ) : Option (List (ℕ × ℕ × ℕ)) :=
  (List.range n).mapM fun i => (tr (x + i) y).map (toRgb mx)

/-- `generate` with `generate_impl` (generate.hpp 69-94, 101-126) for `Pixels` of `rows` lines of `cols` pixels; `tr` is
`tracers::calculate` -/
noncomputable def generate (mx : ℕ) (tr : ℕ → ℕ → Option Col) (x y cols rows : ℕ) : Option (List (List (ℕ × ℕ × ℕ))) :=
  (List.range rows).mapM fun j => generateLine mx tr x (y + j) cols

end Sprout.Dark
