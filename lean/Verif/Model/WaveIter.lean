import Verif.Model.Wave
import Verif.Model.Fourier
import Verif.Model.Normal
import Verif.Model.RandIter

/-!
# Iterators over waves, transforms and noise

`sprout/iterator/{sinusoid,sawtooth,square,triangle}_iterator.hpp`, `sprout/iterator/{dft,idft}_iterator.hpp`,
`sprout/range/adaptor/{sinusoidal,sawtooth_wave,square_wave,triangle_wave,dft,idft}.hpp`, `sprout/compost/waves/white_noise.hpp`.

Simplifications: values are real numbers, indices integers without bounds (but the last index of an unbounded wave is that of
`ptrdiff_t`). The four iterators over waves differ in the function only, so that they are one structure here; `duty` is used by
`square_iterator` only, `d` by `sinusoid_iterator` only.
-/

namespace Sprout.WaveIter

/-- which of the iterators -/
inductive Form
  | sinusoid
  | sawtooth
  | square
  | triangle

/-- the members (sinusoid_iterator.hpp 44-48, sawtooth_iterator.hpp 44-47, square_iterator.hpp 44-48, triangle_iterator.hpp 44-47) -/
structure WIter where
  form : Form
  index : ℤ
  frequency : ℝ
  amplitude : ℝ
  phase : ℝ
  duty : ℝ
  d : ℝ

/-- the constructor with an index (sinusoid_iterator.hpp 66-77 with `sinusoid_value_d`, numeric/dft/detail/sinusoid.hpp 28-32;
sawtooth_iterator.hpp 63-73, square_iterator.hpp 66-78, triangle_iterator.hpp 63-73) -/
noncomputable def WIter.make (form : Form) (index : ℤ) (frequency amplitude phase duty : ℝ) : WIter :=
  ⟨form, index, frequency, amplitude, phase, duty, 2 * Real.pi * frequency⟩

/-- the private constructor from another iterator and an index (sinusoid_iterator.hpp 50-56, triangle_iterator.hpp 49-54) -/
def WIter.withIndex (other : WIter) (index : ℤ) : WIter :=
  ⟨other.form, index, other.frequency, other.amplitude, other.phase, other.duty, other.d⟩

/-- the function of the wave at an index (numeric/dft/detail/sinusoid.hpp 17-22, sawtooth.hpp 22-26, square.hpp 21-25,
triangle.hpp 26-30) -/
noncomputable def WIter.value (it : WIter) (i : ℤ) : ℝ :=
  match it.form with
  | .sinusoid => it.amplitude * Real.sin (it.d * i + it.phase)
  | .sawtooth => it.amplitude * Wave.sawtoothImpl (it.frequency * i + it.phase)
  | .square => it.amplitude * Wave.squareImpl (it.frequency * i + it.phase) it.duty
  | .triangle => it.amplitude * Wave.triangleImpl (it.frequency * i + it.phase)

/-- `operator*` (sinusoid_iterator.hpp 104-108, triangle_iterator.hpp 99-103) -/
noncomputable def WIter.deref (it : WIter) : ℝ := if it.amplitude = 0 then 0 else it.value it.index

/-- `operator[]` (sinusoid_iterator.hpp 146-150, triangle_iterator.hpp 141-145) -/
noncomputable def WIter.at (it : WIter) (n : ℤ) : ℝ := if it.amplitude = 0 then 0 else it.value (it.index + n)

/-- `next` (sinusoid_iterator.hpp 151-153) -/
def WIter.next (it : WIter) : WIter := it.withIndex (it.index + 1)

/-- `prev` (sinusoid_iterator.hpp 154-156) -/
def WIter.prev (it : WIter) : WIter := it.withIndex (it.index - 1)

/-- `operator++` (sinusoid_iterator.hpp 112-115) -/
def WIter.incr (it : WIter) : WIter := { it with index := it.index + 1 }

/-- `operator--` (sinusoid_iterator.hpp 121-124) -/
def WIter.decr (it : WIter) : WIter := { it with index := it.index - 1 }

/-- `operator+` (sinusoid_iterator.hpp 130-132) -/
def WIter.add (it : WIter) (n : ℤ) : WIter := it.withIndex (it.index + n)

/-- `operator-` (sinusoid_iterator.hpp 133-135) -/
def WIter.sub (it : WIter) (n : ℤ) : WIter := it.withIndex (it.index - n)

/-- `swap` (sinusoid_iterator.hpp 157-163): the first becomes the second and conversely, member by member -/
def WIter.swap (a b : WIter) : WIter × WIter :=
  (⟨b.form, b.index, b.frequency, b.amplitude, b.phase, b.duty, b.d⟩, ⟨a.form, a.index, a.frequency, a.amplitude, a.phase, a.duty, a.d⟩)

/-- `operator+=` (sinusoid_iterator.hpp 136-140): `temp.swap(*this)` -/
def WIter.addAssign (it : WIter) (n : ℤ) : WIter := ((it.withIndex (it.index + n)).swap it).2

/-- `operator-=` (sinusoid_iterator.hpp 141-145) -/
def WIter.subAssign (it : WIter) (n : ℤ) : WIter := ((it.withIndex (it.index - n)).swap it).2

/-- `operator==` (sinusoid_iterator.hpp 166-170) -/
def WIter.eq (a b : WIter) : Bool := a.index == b.index

/-- `operator<` (sinusoid_iterator.hpp 176-180) -/
def WIter.lt (a b : WIter) : Bool := a.index < b.index

/-- the difference (sinusoid_iterator.hpp 196-200) -/
def WIter.diff (a b : WIter) : ℤ := a.index - b.index

/-- `begin` and `end` of the range -/
structure WRange where
  first : WIter
  last : WIter

/-- `range | sinusoidal(frequency, amplitude, phase)` (sinusoidal.hpp 46-56, square_wave.hpp 46-57) for a range of `size` elements -/
noncomputable def WRange.make (form : Form) (size : ℕ) (frequency amplitude phase duty : ℝ) : WRange :=
  ⟨.make form 0 frequency amplitude phase duty, .make form size frequency amplitude phase duty⟩

/-- `sinusoidal(frequency, amplitude, phase)` (sinusoidal.hpp 84-93, square_wave.hpp 88-98) without a range -/
noncomputable def WRange.unbounded (form : Form) (frequency amplitude phase duty : ℝ) : WRange :=
  ⟨.make form 0 frequency amplitude phase duty, .make form RandIter.ptrdiffMax frequency amplitude phase duty⟩

/-- `lhs | rhs` (sinusoidal.hpp 132-147, square_wave.hpp 141-157): the parameters are read from the unbounded wave -/
noncomputable def pipe (size : ℕ) (rhs : WRange) : WRange :=
  .make rhs.first.form size rhs.first.frequency rhs.first.amplitude rhs.first.phase rhs.first.duty

/-- `for (; first != last; ++first)`: the values that are seen -/
noncomputable def elements (first last : WIter) : Option (List ℝ) :=
  if first.eq last then some []
  else do
    let r ← elements first.incr last
    some (first.deref :: r)
partial_fixpoint

/-! ## transforms -/

/-- `dft_iterator`, `idft_iterator` (dft_iterator.hpp 55-58): positions in the block `m` -/
structure DIter where
  inv : Bool
  m : List ℂ
  first : ℕ
  last : ℕ
  index : ℕ
  size : ℕ

/-- numbers of arguments with which the class can be constructed (dft_iterator.hpp 60-63, 65-68, 69, 70-73) -/
def ctorArities : List ℕ := [4, 0, 1, 2, 3]

/-- the public constructor (dft_iterator.hpp 70-73) -/
def DIter.make (inv : Bool) (m : List ℂ) (first last index : ℕ) : DIter := ⟨inv, m, first, last, index, last - first⟩

/-- a call of a constructor with `args` arguments, the result being `it` if there is such a constructor -/
def construct (args : ℕ) (it : DIter) : Option DIter := if args ∈ ctorArities then some it else none

/-- `operator*` (dft_iterator.hpp 91-93, idft_iterator.hpp 91-93) -/
noncomputable def DIter.deref (ra : Bool) (it : DIter) : Option ℂ :=
  if it.inv then Fourier.idftElementImpl ra it.m it.first it.last it.index it.size
  else Fourier.dftElementImpl ra it.m it.first it.last it.index it.size

/-- `operator[]` (dft_iterator.hpp 130-132) -/
noncomputable def DIter.at (ra : Bool) (it : DIter) (n : ℕ) : Option ℂ :=
  if it.inv then Fourier.idftElementImpl ra it.m it.first it.last (it.index + n) it.size
  else Fourier.dftElementImpl ra it.m it.first it.last (it.index + n) it.size

/-- `next` (dft_iterator.hpp 74-76): `dft_iterator(first_, last_, index_, index_ + 1, size_)` -/
def DIter.next (it : DIter) : Option DIter := construct 5 { it with index := it.index + 1 }

/-- `operator+` (dft_iterator.hpp 114-116): `dft_iterator(first_, last_, index_, index_ + n, size_)` -/
def DIter.add (it : DIter) (n : ℕ) : Option DIter := construct 5 { it with index := it.index + n }

/-- the member functions (dft_iterator.hpp 74-133) -/
def dftMembers : List String := ["next", "prev", "swap", "operator*", "operator++", "operator--", "operator+", "operator-", "operator+=",
  "operator-=", "operator[]"]

/-- `operator==` (dft_iterator.hpp 135-139) uses `index()` -/
def DIter.eq (a b : DIter) : Option Bool := if "index" ∈ dftMembers then some (a.index == b.index) else none

/-- `range | dft`, `range | idft` (range/adaptor/dft.hpp 43-48): begin and end -/
def dftRange (inv : Bool) (m : List ℂ) : DIter × DIter := (.make inv m 0 m.length 0, .make inv m 0 m.length m.length)

/-- a loop over the range -/
noncomputable def dftTraverse (ra : Bool) (first last : DIter) : Option (List ℂ) := do
  let e ← first.eq last
  if e then some []
  else
    let x ← first.deref ra
    let next ← first.next
    let r ← dftTraverse ra next last
    some (x :: r)
partial_fixpoint

/-! ## noise -/

open RandDist.Normal RandIter in
/-- `white_noise_range(range, gen, sigma)` (white_noise.hpp 56-65) for a range of `count` elements, or `white_noise_range(gen, sigma)`
(96-104) with the greatest `ptrdiff_t` as `count` (generator_iterator.hpp 52); `r0` is the default value in the end iterator -/
def noiseRange {R E : Type} [RandDist.Arith R] (U : E → R × E) (r0 : RR (VG E (NDist R)) R) (e : E) (sigma : R) (count : ℤ) :
    Option (GI (VG E (NDist R)) R × GI (VG E (NDist R)) R) := do
  let d ← make (RandDist.Arith.lit 0) sigma
  let r ← VG.call (fun d e => some (callConst U d e)) ⟨e, d⟩
  some (⟨⟨r.1, r.2⟩, count⟩, ⟨r0, 0⟩)

open RandDist.Normal RandIter in
/-- `range | white_noise(gen, sigma)` (white_noise.hpp 118-126, 139-152): `engine()` and `sigma()` are those of the first iterator of
the unbounded noise (105-110) -/
def noisePipe {R E : Type} [RandDist.Arith R] (U : E → R × E) (r0 : RR (VG E (NDist R)) R) (size : ℕ) (e : E) (sigma : R) :
    Option (GI (VG E (NDist R)) R × GI (VG E (NDist R)) R) := do
  let rhs ← noiseRange U r0 e sigma ptrdiffMax
  noiseRange U r0 rhs.1.gen.gen.engine rhs.1.gen.gen.distribution.sigma size

end Sprout.WaveIter
