import Verif.Basic
import Mathlib.Analysis.SpecialFunctions.Trigonometric.Basic

/-!
# sprout/numeric/dft, sprout/numeric/fft

`complex<T>` with `T` the exact real numbers; `sin`, `cos`, `pi` are exact too. Rounding is not represented.
The products and sums of complex numbers are those of complex/arithmetic_operators.hpp 16-53, quotients by a real number
line 84-88. Numbers of type `difference_type` are natural numbers: none becomes negative, none overflows.
-/

namespace Sprout.Fourier
open Real (cos sin)

/-! ### dft -/

/-- `dft_element_gen_impl_ra` (numeric/dft/detail/dft_element_gen.hpp 20-40) -/
noncomputable def genRa (m : List ℂ) (first last : Nat) (arg : ℝ) (pivot k : Nat) : Option ℂ :=
  if pivot = 0 then do
    let x ← rd m first
    some (x * ⟨cos (arg * k), sin (arg * k)⟩)
  else do
    let a ← genRa m first (first + pivot) arg (pivot / 2) k
    let b ← genRa m (first + pivot) last arg ((last - first - pivot) / 2) (k + pivot)
    some (a + b)
partial_fixpoint

/-- `dft_element_gen_impl` for random access iterators (dft_element_gen.hpp 41-53) -/
noncomputable def genR (m : List ℂ) (first last : Nat) (arg : ℝ) : Option ℂ :=
  if first = last then some 0 else genRa m first last arg ((last - first) / 2) 0

/-- `dft_element_gen_impl_1` (dft_element_gen.hpp 55-79) -/
noncomputable def genI1 (m : List ℂ) (first last : Nat) (arg : ℝ) (k : Nat) (value : ℂ) (theta : ℝ) : Option ℂ :=
  if first = last then some value
  else do
    let x ← rd m first
    let r ← genI1 m (first + 1) last arg (k + 1) (x * ⟨cos theta, sin theta⟩) (arg * (k + 1))
    some (value + r)
partial_fixpoint

/-- `dft_element_gen_impl` for other iterators (dft_element_gen.hpp 80-89) -/
noncomputable def genI (m : List ℂ) (first last : Nat) (arg : ℝ) : Option ℂ := genI1 m first last arg 0 0 0

/-- `dft_element_gen` (dft_element_gen.hpp 91-100); `ra`: the iterators are random access iterators -/
noncomputable def gen (ra : Bool) (m : List ℂ) (first last : Nat) (arg : ℝ) : Option ℂ :=
  if ra then genR m first last arg else genI m first last arg

/-- `detail::dft_element_impl` (numeric/dft/dft_element.hpp 19-32) -/
noncomputable def dftElementImpl (ra : Bool) (m : List ℂ) (first last i size : Nat) : Option ℂ :=
  gen ra m first last (-(2 * Real.pi * i / size))

/-- `dft_element` (dft_element.hpp 37-44) -/
noncomputable def dftElement (ra : Bool) (m : List ℂ) (first last i : Nat) : Option ℂ :=
  dftElementImpl ra m first last i (last - first)

/-- `detail::idft_element_impl` (numeric/dft/idft_element.hpp 19-34) -/
noncomputable def idftElementImpl (ra : Bool) (m : List ℂ) (first last i size : Nat) : Option ℂ := do
  let s ← gen ra m first last (2 * Real.pi * i / size)
  some ⟨s.re / size, s.im / size⟩

/-- `idft_element` (idft_element.hpp 39-46) -/
noncomputable def idftElement (ra : Bool) (m : List ℂ) (first last i : Nat) : Option ℂ :=
  idftElementImpl ra m first last i (last - first)

/-- `fixed::detail::dft_impl_ra` (numeric/dft/fixed/dft.hpp 29-46) for an array `result` (offset 0): one element for each
index. `elem` is `dft_element_impl` or, in numeric/dft/fixed/idft.hpp 29-46, `idft_element_impl`. -/
noncomputable def fixedRa (elem : Bool → List ℂ → Nat → Nat → Nat → Nat → Option ℂ) (m : List ℂ) (first last : Nat)
    (result : List ℂ) : Option (List ℂ) :=
  (List.range result.length).mapM (fun i =>
    if i < last - first then elem true m first last i (last - first) else rd result i)

/-- `fixed::detail::dft_impl` for forward iterators (dft.hpp 63-96; idft.hpp 63-96): the elements are computed one after another
and passed on as `args`; `container_complate` fills up with the elements of `result`. The size handed to `dft_element_impl`
is the size of `result`. -/
noncomputable def fixedFwd (elem : Bool → List ℂ → Nat → Nat → Nat → Nat → Option ℂ) (m : List ℂ) (first last : Nat)
    (result : List ℂ) (first0 i : Nat) (args : List ℂ) : Option (List ℂ) :=
  if args.length = result.length then some args
  else if first ≠ last ∧ args.length < result.length then do
    let e ← elem false m first0 last i result.length
    fixedFwd elem m (first + 1) last result first0 (i + 1) (args ++ [e])
  else some (args ++ result.drop args.length)
partial_fixpoint

/-- `fixed::dft(first, last, result)` (dft.hpp 47-61, 97-115, 133-137) -/
noncomputable def fixedDft (ra : Bool) (m : List ℂ) (first last : Nat) (result : List ℂ) : Option (List ℂ) :=
  if ra then fixedRa dftElementImpl m first last result else fixedFwd dftElementImpl m first last result first 0 []

/-- `fixed::idft(first, last, result)` (idft.hpp 47-61, 97-115, 133-137) -/
noncomputable def fixedIdft (ra : Bool) (m : List ℂ) (first last : Nat) (result : List ℂ) : Option (List ℂ) :=
  if ra then fixedRa idftElementImpl m first last result else fixedFwd idftElementImpl m first last result first 0 []

end Sprout.Fourier
