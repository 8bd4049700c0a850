import Verif.Basic
import Mathlib.Analysis.SpecialFunctions.Complex.Arg
import Mathlib.Analysis.SpecialFunctions.Trigonometric.Inverse

/-!
# Wave forms and spectra of sprout/numeric/dft

`T` is the type of exact real numbers; `sin`, `asin`, `floor`, `sqrt`, `atan2` are exact. Rounding is not represented.
-/

namespace Sprout.Wave

/-- `detail::sinusoid_value` (numeric/dft/detail/sinusoid.hpp 17-22) -/
noncomputable def sinusoidValue (amplitude phase d : ℝ) (i : Nat) : ℝ := amplitude * Real.sin (d * i + phase)

/-- `detail::sinusoid_value_d(frequency, size)` (sinusoid.hpp 23-27) -/
noncomputable def sinusoidD (frequency : ℝ) (size : Nat) : ℝ := 2 * Real.pi * frequency / size

/-- `detail::sawtooth_value_impl` (numeric/dft/detail/sawtooth.hpp 16-21) -/
noncomputable def sawtoothImpl (t : ℝ) : ℝ := 2 * (t - ⌊t + 0.5⌋)

/-- `detail::sawtooth_value` (sawtooth.hpp 22-26) -/
noncomputable def sawtoothValue (frequency amplitude phase : ℝ) (i : Nat) : ℝ := amplitude * sawtoothImpl (frequency * i + phase)

/-- `detail::square_value_impl` (numeric/dft/detail/square.hpp 16-20) -/
noncomputable def squareImpl (t duty : ℝ) : ℝ := sawtoothImpl t - sawtoothImpl (t - duty)

/-- `detail::square_value` (square.hpp 21-25) -/
noncomputable def squareValue (frequency amplitude phase duty : ℝ) (i : Nat) : ℝ := amplitude * squareImpl (frequency * i + phase) duty

/-- `detail::triangle_value_impl` (numeric/dft/detail/triangle.hpp 18-25) -/
noncomputable def triangleImpl (t : ℝ) : ℝ := 2 / Real.pi * Real.arcsin (Real.sin (2 * Real.pi * t))

/-- `detail::triangle_value` (triangle.hpp 26-30) -/
noncomputable def triangleValue (frequency amplitude phase : ℝ) (i : Nat) : ℝ := amplitude * triangleImpl (frequency * i + phase)

/-- the expansion in `fixed::detail::sinusoid_impl` (numeric/dft/fixed/sinusoid.hpp 24-43) and in `square_impl`, `sawtooth_impl`,
`triangle_impl` (fixed/square.hpp 24-44, fixed/sawtooth.hpp 24-43, fixed/triangle.hpp 24-43). `cont` is what lies between
`internal_begin(cont)` and its end, `offset` is `internal_begin_offset(cont)`: 0 unless the container is a `sub_array`. -/
noncomputable def expand (value : Nat → ℝ) (cont : List ℝ) (offset size : Nat) : Option (List ℝ) :=
  (List.range cont.length).mapM (fun idx => if offset ≤ idx ∧ idx < offset + size then some (value idx) else rd cont idx)

/-- `fixed::sinusoid(cont, frequency, amplitude, phase)` (fixed/sinusoid.hpp 44-77) -/
noncomputable def sinusoid (cont : List ℝ) (offset size : Nat) (frequency amplitude phase : ℝ) : Option (List ℝ) :=
  expand (sinusoidValue amplitude phase (sinusoidD frequency size)) cont offset size

/-- `fixed::sawtooth` (fixed/sawtooth.hpp 44-77) -/
noncomputable def sawtooth (cont : List ℝ) (offset size : Nat) (frequency amplitude phase : ℝ) : Option (List ℝ) :=
  expand (sawtoothValue frequency amplitude phase) cont offset size

/-- `fixed::square` (fixed/square.hpp 45-81) -/
noncomputable def square (cont : List ℝ) (offset size : Nat) (frequency amplitude phase duty : ℝ) : Option (List ℝ) :=
  expand (squareValue frequency amplitude phase duty) cont offset size

/-- `fixed::triangle` (fixed/triangle.hpp 44-77) -/
noncomputable def triangle (cont : List ℝ) (offset size : Nat) (frequency amplitude phase : ℝ) : Option (List ℝ) :=
  expand (triangleValue frequency amplitude phase) cont offset size

/-- `amplitude_spectrum_value` (numeric/dft/amplitude_spectrum_value.hpp 19-25) -/
noncomputable def amplitudeValue (x : ℂ) : ℝ := Real.sqrt (x.re * x.re + x.im * x.im)

/-- `llround`: halves are rounded away from zero (math/llround.hpp 41-54) -/
noncomputable def llround (x : ℝ) : ℤ := if x < 0 then -⌊-x + 1 / 2⌋ else ⌊x + 1 / 2⌋

/-- `atan2(y, x)`: the angle of the point `(x, y)`, 0 for the origin (math/atan2.hpp, with exact arithmetic) -/
noncomputable def atan2 (y x : ℝ) : ℝ := Complex.arg ⟨x, y⟩

/-- `phase_spectrum_value` (numeric/dft/phase_spectrum_value.hpp 20-26) -/
noncomputable def phaseValue (x : ℂ) : ℝ := atan2 (llround x.im) (llround x.re)

/-- `fixed::detail::amplitude_spectrum_impl_ra`, `phase_spectrum_impl_ra` (numeric/dft/fixed/amplitude_spectrum.hpp 31-63,
fixed/phase_spectrum.hpp 31-63): `first` is the position of the first element in the block `m` -/
noncomputable def spectrumRa (value : ℂ → ℝ) (m : List ℂ) (first last : Nat) (result : List ℝ) (offset size : Nat) : Option (List ℝ) :=
  (List.range result.length).mapM (fun idx =>
    if offset ≤ idx ∧ idx < offset + size ∧ idx < offset + (last - first) then do
      let x ← rd m (first + idx)
      some (value x)
    else rd result idx)

/-- `fixed::detail::amplitude_spectrum_impl`, `phase_spectrum_impl` for forward iterators (amplitude_spectrum.hpp 65-105,
phase_spectrum.hpp 65-105); `container_complate` fills up with the elements of `result` -/
noncomputable def spectrumFwd (value : ℂ → ℝ) (m : List ℂ) (first last : Nat) (result : List ℝ) (args : List ℝ) : Option (List ℝ) :=
  if args.length = result.length then some args
  else if first ≠ last ∧ args.length < result.length then do
    let x ← rd m first
    spectrumFwd value m (first + 1) last result (args ++ [value x])
  else some (args ++ result.drop args.length)
partial_fixpoint

end Sprout.Wave
