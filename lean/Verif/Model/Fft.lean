import Verif.Model.Fourier

/-!
# sprout/numeric/fft/cxx14

`complex<T>` with `T` the exact real numbers, see Model/Fourier. The list `a` holds the elements from `first` to `last`; an
access `first[i]` with `i` outside is undefined behaviour (`none`) here, though in a bigger array it might touch a neighbour.
Indices are natural numbers: for no size does one of the differences written below become negative.
-/

namespace Sprout.Fourier
open Real (cos sin)

/-- `for (k = …; k > (i ^= k); k >>= 1) ;` (numeric/fft/cxx14/fft.hpp 34-35, 93-94): the final `i` -/
def revInc (i k : Nat) : Nat :=
  if k > i ^^^ k then revInc (i ^^^ k) (k / 2) else i ^^^ k
termination_by k
decreasing_by omega

/-- the scrambler (fft.hpp 33-39) from counter `j` on -/
noncomputable def scramble (size i j : Nat) (a : List ℂ) : Option (List ℂ) :=
  if j < size - 1 then do
    let i := revInc i (size / 2)
    let a ← if j < i then swp a i j else some a
    scramble size i (j + 1) a
  else some a
partial_fixpoint

/-- `for (; j < e; ++j) body` -/
noncomputable def jLoop (body : List ℂ → Nat → Option (List ℂ)) (j e : Nat) (a : List ℂ) : Option (List ℂ) :=
  if j < e then do
    let a ← body a j
    jLoop body (j + 1) e a
  else some a
partial_fixpoint

/-- `for (; k >= 1; k >>= 2) for (j = base + mq - k; j < base + mq - (k >> 1); ++j) body`
(fft.hpp 45-46, 69-70, 99-100, 126-127) -/
noncomputable def kLoop (body : List ℂ → Nat → Option (List ℂ)) (base mq k : Nat) (a : List ℂ) : Option (List ℂ) :=
  if k ≥ 1 then do
    let a ← jLoop body (base + mq - k) (base + mq - k / 2) a
    kLoop body base mq (k / 4) a
  else some a
partial_fixpoint

/-- the body of the L shaped butterflies, three copies (fft.hpp 47-61, 71-89, 101-119) that differ only in what is made from
`x0r`, `x0i` for `first[j1]` (here `f1`) and for `first[j3]` (here `f3`) -/
noncomputable def butterfly (f1 f3 : ℝ → ℝ → ℂ) (mq : Nat) (a : List ℂ) (j : Nat) : Option (List ℂ) := do
  let j1 := j + mq
  let j2 := j1 + mq
  let j3 := j2 + mq
  let x1 := (← rd a j) - (← rd a j1)
  let a ← wr a j ((← rd a j) + (← rd a j1))
  let x3 := (← rd a j3) - (← rd a j2)
  let a ← wr a j2 ((← rd a j2) + (← rd a j3))
  let a ← wr a j1 (f1 (x1.re - x3.im) (x1.im + x3.re))
  wr a j3 (f3 (x1.re + x3.im) (x1.im - x3.re))

/-- `W == 1` (fft.hpp 54-61) -/
noncomputable def bfly1 : Nat → List ℂ → Nat → Option (List ℂ) :=
  butterfly (fun r i => ⟨r, i⟩) (fun r i => ⟨r, i⟩)

/-- the second copy (fft.hpp 78-89) -/
noncomputable def bfly2 (w1r : ℝ) : Nat → List ℂ → Nat → Option (List ℂ) :=
  butterfly (fun r i => ⟨w1r * (r + i), w1r * (i - r)⟩) (fun r i => ⟨w1r * (-r + i), w1r * (-i - r)⟩)

/-- the third copy (fft.hpp 108-119) -/
noncomputable def bfly3 (w1r w1i w3r w3i : ℝ) : Nat → List ℂ → Nat → Option (List ℂ) :=
  butterfly (fun r i => ⟨w1r * r - w1i * i, w1r * i + w1i * r⟩) (fun r i => ⟨w3r * r - w3i * i, w3r * i + w3i * r⟩)

/-- the loop over `i` (fft.hpp 92-122) -/
noncomputable def iLoop (size : Nat) (theta : ℝ) (m mq irev i : Nat) (a : List ℂ) : Option (List ℂ) :=
  if i < size then do
    let irev := revInc irev (size / 2)
    let a ← kLoop (bfly3 (cos (theta * irev)) (sin (theta * irev)) (cos (theta * 3 * irev)) (sin (theta * 3 * irev)) mq) i mq mq a
    iLoop size theta m mq irev (i + m) a
  else some a
partial_fixpoint

/-- the loop over `m` (fft.hpp 42-123) -/
noncomputable def mLoop (size : Nat) (theta : ℝ) (m : Nat) (a : List ℂ) : Option (List ℂ) :=
  if m ≤ size then do
    let mq := m / 4
    let a ← kLoop (bfly1 mq) 0 mq mq a
    if m = size then mLoop size theta (m * 2) a
    else do
      let irev := size / 2
      let a ← kLoop (bfly2 (cos (theta * irev)) mq) m mq mq a
      let a ← iLoop size theta m mq irev (2 * m) a
      mLoop size theta (m * 2) a
  else some a
partial_fixpoint

/-- the body of the radix 2 butterflies (fft.hpp 128-131) -/
noncomputable def radix2 (mq : Nat) (a : List ℂ) (j : Nat) : Option (List ℂ) := do
  let j1 := mq + j
  let x0 := (← rd a j) - (← rd a j1)
  let a ← wr a j ((← rd a j) + (← rd a j1))
  wr a j1 x0

/-- `fft(first, last)` (fft.hpp 23-134) -/
noncomputable def fft (a : List ℂ) : Option (List ℂ) := do
  let size := a.length
  let a ← scramble size 0 1 a
  let theta : ℝ := -(Real.pi / 2 / size)
  let a ← mLoop size theta 4 a
  let mq := size / 2
  kLoop (radix2 mq) 0 mq mq a

/-- `ifft(first, last)` (numeric/fft/cxx14/ifft.hpp 19-55). `transform` in place replaces every element
(algorithm/cxx14/transform.hpp 23-29); `conj` (complex/conj.hpp 21-25) and the quotient are written out. -/
noncomputable def ifft (a : List ℂ) : Option (List ℂ) := do
  let a := a.map (fun x => (⟨x.re, -x.im⟩ : ℂ))
  let a ← fft a
  some (a.map (fun x => (⟨x.re / (a.length : ℝ), -x.im / (a.length : ℝ)⟩ : ℂ)))

end Sprout.Fourier
