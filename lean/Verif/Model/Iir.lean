import Mathlib.Analysis.SpecialFunctions.Trigonometric.Basic

/-!
# Second order filters

`sprout/compost/utility/iir_filter.hpp`.

Simplifications: samples and coefficients (`float`, `double`) are numbers of a field, for the design of the coefficients real numbers;
`sprout::tan`, `sprout::sqrt` and the constants `pi`, `two_pi` and `four_pi` (math/constants.hpp 57-64) are exact; a division by zero
(or the tangent at an odd multiple of `π/2`) is `none`. `sprout::remake<A>(a, 3, x, y, z)` is the container of `x`, `y`, `z`.
-/

namespace Sprout.Iir

/-- the two containers of three coefficients, `pair(a, b)`, that the functions `iir_…` return -/
@[ext] structure Coef (K : Type) where
  a0 : K
  a1 : K
  a2 : K
  b0 : K
  b1 : K
  b2 : K

/-- a division -/
noncomputable def dv (x y : ℝ) : Option ℝ := if y = 0 then none else some (x / y)

/-- `detail::iir_fc` (iir_filter.hpp 23-29) -/
noncomputable def iirFc (fc : ℝ) : Option ℝ :=
  if Real.cos (Real.pi * fc) = 0 then none else some (Real.tan (Real.pi * fc) / (2 * Real.pi))

/-- `detail::iir_g` (iir_filter.hpp 30-34) -/
noncomputable def iirG (g : ℝ) : ℝ := g + 1

/-- `detail::iir_lpf_impl_2` (iir_filter.hpp 38-55), with `x / q` computed -/
noncomputable def lpfImpl2 (xq x2 y : ℝ) : Option (Coef ℝ) := do
  let a1 ← dv (2 * x2 - 2) y
  let a2 ← dv (1 - xq + x2) y
  let b0 ← dv x2 y
  let b1 ← dv (2 * x2) y
  let b2 ← dv x2 y
  some ⟨1, a1, a2, b0, b1, b2⟩

/-- `iir_lpf(fc, q, a, b)` (iir_filter.hpp 56-87) -/
noncomputable def lpf (fc q : ℝ) : Option (Coef ℝ) := do
  let fc ← iirFc fc
  let x := 2 * Real.pi * fc
  let xq ← dv x q
  lpfImpl2 xq (x * x) (1 + xq + x * x)

/-- `detail::iir_hpf_impl_2` (iir_filter.hpp 90-107) -/
noncomputable def hpfImpl2 (xq x2 y : ℝ) : Option (Coef ℝ) := do
  let a1 ← dv (2 * x2 - 2) y
  let a2 ← dv (1 - xq + x2) y
  let b0 ← dv 1 y
  let b1 ← dv (-2) y
  let b2 ← dv 1 y
  some ⟨1, a1, a2, b0, b1, b2⟩

/-- `iir_hpf(fc, q, a, b)` (iir_filter.hpp 108-139) -/
noncomputable def hpf (fc q : ℝ) : Option (Coef ℝ) := do
  let fc ← iirFc fc
  let x := 2 * Real.pi * fc
  let xq ← dv x q
  hpfImpl2 xq (x * x) (1 + xq + x * x)

/-- `detail::iir_bpf_impl_2` (iir_filter.hpp 142-159) -/
noncomputable def bpfImpl2 (x x2 y : ℝ) : Option (Coef ℝ) := do
  let a1 ← dv (2 * x2 - 2) y
  let a2 ← dv (1 - x + x2) y
  let b0 ← dv x y
  let b2 ← dv (-x) y
  some ⟨1, a1, a2, b0, 0, b2⟩

/-- `detail::iir_bpf_impl` and `iir_bpf_impl_1` (iir_filter.hpp 160-176) -/
noncomputable def bpfImpl (fc1 fc2 : ℝ) : Option (Coef ℝ) :=
  let x := 2 * Real.pi * (fc2 - fc1)
  let x2 := 4 * Real.pi * fc1 * fc2
  bpfImpl2 x x2 (1 + x + x2)

/-- `iir_bpf(fc1, fc2, a, b)` (iir_filter.hpp 181-195) -/
noncomputable def bpf (fc1 fc2 : ℝ) : Option (Coef ℝ) := do
  let fc1 ← iirFc fc1
  let fc2 ← iirFc fc2
  bpfImpl fc1 fc2

/-- `detail::iir_bef_impl_2` (iir_filter.hpp 198-215) -/
noncomputable def befImpl2 (x x2 y : ℝ) : Option (Coef ℝ) := do
  let a1 ← dv (2 * x2 - 2) y
  let a2 ← dv (1 - x + x2) y
  let b0 ← dv (x2 + 1) y
  let b1 ← dv (2 * x2 - 2) y
  let b2 ← dv (x2 + 1) y
  some ⟨1, a1, a2, b0, b1, b2⟩

/-- `detail::iir_bef_impl` and `iir_bef_impl_1` (iir_filter.hpp 216-232) -/
noncomputable def befImpl (fc1 fc2 : ℝ) : Option (Coef ℝ) :=
  let x := 2 * Real.pi * (fc2 - fc1)
  let x2 := 4 * Real.pi * fc1 * fc2
  befImpl2 x x2 (1 + x + x2)

/-- `iir_bef(fc1, fc2, a, b)` (iir_filter.hpp 237-251) -/
noncomputable def bef (fc1 fc2 : ℝ) : Option (Coef ℝ) := do
  let fc1 ← iirFc fc1
  let fc2 ← iirFc fc2
  befImpl fc1 fc2

/-- `detail::iir_resonator_impl_2` (iir_filter.hpp 254-271) -/
noncomputable def resonatorImpl2 (xq x2 y : ℝ) : Option (Coef ℝ) := do
  let a1 ← dv (2 * x2 - 2) y
  let a2 ← dv (1 - xq + x2) y
  let b0 ← dv xq y
  let b2 ← dv (-xq) y
  some ⟨1, a1, a2, b0, 0, b2⟩

/-- `iir_resonator(fc, q, a, b)` (iir_filter.hpp 272-303) -/
noncomputable def resonator (fc q : ℝ) : Option (Coef ℝ) := do
  let fc ← iirFc fc
  let x := 2 * Real.pi * fc
  let xq ← dv x q
  resonatorImpl2 xq (x * x) (1 + xq + x * x)

/-- `detail::iir_notch_impl_2` (iir_filter.hpp 306-323) -/
noncomputable def notchImpl2 (xq x2 y : ℝ) : Option (Coef ℝ) := do
  let a1 ← dv (2 * x2 - 2) y
  let a2 ← dv (1 - xq + x2) y
  let b0 ← dv (x2 + 1) y
  let b1 ← dv (2 * x2 + 2) y
  let b2 ← dv (x2 + 1) y
  some ⟨1, a1, a2, b0, b1, b2⟩

/-- `iir_notch(fc, q, a, b)` (iir_filter.hpp 324-355) -/
noncomputable def notch (fc q : ℝ) : Option (Coef ℝ) := do
  let fc ← iirFc fc
  let x := 2 * Real.pi * fc
  let xq ← dv x q
  notchImpl2 xq (x * x) (1 + xq + x * x)

/-- `detail::iir_low_shelving_impl_2` (iir_filter.hpp 358-375), with `g_ * x / q` computed (`gxq`) -/
noncomputable def lowShelvingImpl2 (g xq x2 y gxq : ℝ) : Option (Coef ℝ) := do
  let a1 ← dv (2 * x2 - 2) y
  let a2 ← dv (1 - xq + x2) y
  let b0 ← dv (1 + gxq + g * x2) y
  let b1 ← dv (2 * g * x2 - 2) y
  let b2 ← dv (1 + gxq + g * x2) y
  some ⟨1, a1, a2, b0, b1, b2⟩

/-- `iir_low_shelving(fc, q, g, a, b)` (iir_filter.hpp 376-411) -/
noncomputable def lowShelving (fc q g : ℝ) : Option (Coef ℝ) := do
  let fc ← iirFc fc
  let g := iirG g
  let x := 2 * Real.pi * fc
  let xq ← dv x q
  let gxq ← dv (Real.sqrt g * x) q
  lowShelvingImpl2 g xq (x * x) (1 + xq + x * x) gxq

/-- `detail::iir_high_shelving_impl_2` (iir_filter.hpp 414-431), with `g_ * x / q` computed (`gxq`) -/
noncomputable def highShelvingImpl2 (g xq x2 y gxq : ℝ) : Option (Coef ℝ) := do
  let a1 ← dv (2 * x2 - 2) y
  let a2 ← dv (1 - xq + x2) y
  let b0 ← dv (g + gxq + x2) y
  let b1 ← dv (2 * x2 - 2 * g) y
  let b2 ← dv (g + gxq + x2) y
  some ⟨1, a1, a2, b0, b1, b2⟩

/-- `iir_high_shelving(fc, q, g, a, b)` (iir_filter.hpp 432-467) -/
noncomputable def highShelving (fc q g : ℝ) : Option (Coef ℝ) := do
  let fc ← iirFc fc
  let g := iirG g
  let x := 2 * Real.pi * fc
  let xq ← dv x q
  let gxq ← dv (Real.sqrt g * x) q
  highShelvingImpl2 g xq (x * x) (1 + xq + x * x) gxq

/-- `detail::iir_peaking_impl_2` (iir_filter.hpp 470-487) -/
noncomputable def peakingImpl2 (g xq x2 y : ℝ) : Option (Coef ℝ) := do
  let a1 ← dv (2 * x2 - 2) y
  let a2 ← dv (1 - xq + x2) y
  let b0 ← dv (1 + xq + g + x2) y
  let b1 ← dv (2 * x2 - 2) y
  let b2 ← dv (1 + xq + g + x2) y
  some ⟨1, a1, a2, b0, b1, b2⟩

/-- `iir_peaking(fc, q, g, a, b)` (iir_filter.hpp 488-522) -/
noncomputable def peaking (fc q g : ℝ) : Option (Coef ℝ) := do
  let fc ← iirFc fc
  let g := iirG g
  let x := 2 * Real.pi * fc
  let xq ← dv x q
  peakingImpl2 g xq (x * x) (1 + xq + x * x)

variable {K : Type} [Field K]

/-- the delays `pair(da, db)`: the last two results and the last two inputs, the later one first -/
structure Delay (K : Type) where
  da0 : K
  da1 : K
  db0 : K
  db1 : K

/-- `apply_iir(base, a, b, da, db)` and `detail::apply_iir_impl` (iir_filter.hpp 525-564) -/
def applyIir (base : K) (c : Coef K) (d : Delay K) : K × Delay K :=
  let sample := c.b0 * base + c.b1 * d.db0 + c.b2 * d.db1 - c.a1 * d.da0 - c.a2 * d.da1
  (sample, ⟨sample, d.da0, base, d.db0⟩)

end Sprout.Iir
