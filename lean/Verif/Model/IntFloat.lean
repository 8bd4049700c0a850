import Mathlib.Algebra.Order.Floor.Ring
import Mathlib.Data.Rat.Floor
import Mathlib.Data.Nat.Bitwise

/-!
# Integers from an engine of floating point numbers: `sprout/random/detail/uniform_int_float.hpp`

`none` is an ill-formed program. Simplification: the arithmetic of floating point numbers is exact.
-/

namespace Sprout.IntFloat

/-- the types of the arguments of `min` -/
inductive Ty
  | int
  | sizeT
  deriving DecidableEq

/-- `min(T const&, T const&)` (algorithm/detail/min.hpp 26-30): the type is deduced from both arguments -/
def minT (a b : Ty × Nat) : Option Nat := if a.1 = b.1 then some (if b.2 < a.2 then b.2 else a.2) else none

/-- `max()` (uniform_int_float.hpp 56-66): `tb` is the type of `generator_bits::value()`, `W` the digits of the unsigned type `result_type`, `d` those of
the type of the engine -/
def maxT (tb : Ty) (W d : Nat) : Option Nat := do
  let k ← minT (.int, W) (tb, d)
  some ((2 <<< (k - 1) % 2 ^ W + 2 ^ W - 1) % 2 ^ W)

/-- `generate`, called by `operator() const` (37-45, 76-78), for the number `r` of the engine -/
def callConstT (tb : Ty) (W d : Nat) (r : ℚ) : Option Int := do
  let m ← maxT tb W d
  some ⌊r * ((m : ℚ) + 1)⌋

/-- `operator()` (73-75), which is used by C++14 -/
def callT (tb : Ty) (W d : Nat) (r : ℚ) : Option Int := do
  let m ← maxT tb W d
  some ⌊r * (m : ℚ) + 1⌋

/-- the type of `generator_bits::value()` (detail/generator_bits.hpp 21) -/
def bitsTy : Ty := .sizeT

/-- `operator() const` of the code -/
def callConst (W d : Nat) (r : ℚ) : Option Int := callConstT bitsTy W d r

/-- `operator()` of the code -/
def call (W d : Nat) (r : ℚ) : Option Int := callT bitsTy W d r

end Sprout.IntFloat
