import Verif.Model.Fourier
import Verif.Model.Bits

/-!
# sprout/numeric/fft/fixed, sprout/numeric/fft/coefficients.hpp

`complex<T>` with `T` the exact real numbers, see Model/Fourier. An `array` is a list; reading outside is undefined behaviour
(`none`).
-/

namespace Sprout.Fourier
open Real (cos sin)

/-- `make_fft_coefficients_loop<value_type, N, Size>(inverse)` (numeric/fft/coefficients.hpp 23-61); `make_fft_coefficients_impl`
(line 23-33) is the concatenation -/
noncomputable def coeffLoop (inverse : Bool) (size : Nat) : Nat → List ℂ
  | 0 => [⟨1, 0⟩]
  | N + 1 =>
    let arr := coeffLoop inverse size N
    let sign : ℝ := if inverse then -1 else 1
    let mul : ℂ := ⟨cos (sign * (2 * Real.pi) / (2 ^ size / 2 ^ N : Nat)), sin (sign * (2 * Real.pi) / (2 ^ size / 2 ^ N : Nat))⟩
    arr ++ arr.map (· * mul)

/-- `make_fft_coefficients<value_type, Size>()`, `make_ifft_coefficients` (coefficients.hpp 63-78). `Nat.log2` of a
`Size` other than zero is `bit_length(Size) - 1` (property C23 of `bit_length`). -/
noncomputable def coeffs (inverse : Bool) (Size : Nat) : List ℂ := coeffLoop inverse (Nat.log2 Size) (Nat.log2 Size)

/-- `fixed::detail::fft_element` (numeric/fft/fixed/fft.hpp 23-35) -/
noncomputable def fixedElement (arr : List ℂ) (step i j : Nat) (sub : Bool) (coeffs : List ℂ) : Option ℂ := do
  let a ← rd arr (i * step + j)
  let c ← rd coeffs (j * (arr.length / 2 / step))
  let b ← rd arr (i * step + j + arr.length / 2)
  if sub then some (a - c * b) else some (a + c * b)

/-- `fixed::detail::butterfly` (fft.hpp 37-49) -/
noncomputable def fixedButterfly (arr : List ℂ) (step : Nat) (coeffs : List ℂ) : Option (List ℂ) :=
  (List.range arr.length).mapM (fun idx => fixedElement arr step (idx / (step * 2)) (idx % step) ((idx &&& step) != 0) coeffs)

/-- `fixed::detail::fft_loop` (fft.hpp 51-61) -/
noncomputable def fftLoop (arr : List ℂ) (step : Nat) (coeffs : List ℂ) : Option (List ℂ) :=
  if step = arr.length then some arr
  else do
    let arr ← fixedButterfly arr step coeffs
    fftLoop arr (step * 2) coeffs
partial_fixpoint

/-- `fixed::detail::make_input<Size>` (fft.hpp 70-84) -/
noncomputable def makeInput (Size : Nat) (cont : List ℂ) : Option (List ℂ) :=
  (List.range Size).mapM (fun i => if i < cont.length then rd cont i else some 0)

/-- `fixed::fft<Result>(cont)` for an array `Result` of `Size` elements (fft.hpp 63-67, 85-112): all elements of the result
are replaced -/
noncomputable def fixedFft (Size : Nat) (cont : List ℂ) : Option (List ℂ) := do
  let a ← makeInput Size cont
  fftLoop a 1 (coeffs false Size)

/-- `fixed::detail::make_ifft_result(fixed::detail::ifft(arr))` (numeric/fft/fixed/ifft.hpp 22-37). `fixed::ifft` itself
(line 43-59) passes two iterators to `make_input`, which takes a container: it does not compile. -/
noncomputable def fixedIfftArr (arr : List ℂ) : Option (List ℂ) := do
  let a ← fftLoop arr 1 (coeffs true arr.length)
  some (a.map (fun z => (⟨z.re / (arr.length : ℝ), z.im / (arr.length : ℝ)⟩ : ℂ)))

/-- `bitrev_table(cont)` (numeric/fft/fixed/bitrev_table.hpp 25-63) for an array of `size` elements of an integer type of `w` bits
(offset 0, so that every element is computed); `size_t` has 64 bits -/
def bitrevTable (w size : Nat) : Option (List (BitVec w)) := do
  let l ← if size = 0 then some (0#64) else bitLength (BitVec.ofNat 64 (size - 1))
  (List.range size).mapM (fun i => bitReverseIn (BitVec.ofNat w i) (l.toNat : Int))

end Sprout.Fourier
