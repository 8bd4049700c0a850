import Mathlib.Algebra.Order.Ring.Nat

/-!
# The Mersenne twister of the C++ standard

[rand.eng.mers]. Words are natural numbers below `2^w`. The sequence `X` starts at index 0 (the standard's `X_{-n}`): `X 0 .. X (n-1)`
is the initial state, `X (n + j)` gives the `j`-th output.
-/

namespace Sprout
namespace Spec

/-- the parameters -/
structure MtPar where
  w : Nat
  n : Nat
  m : Nat
  r : Nat
  a : Nat
  u : Nat
  d : Nat
  s : Nat
  b : Nat
  t : Nat
  c : Nat
  l : Nat
  f : Nat

/-- the constraints of the standard, with `m < n` (for `m = n` the recurrence refers to itself) -/
structure MtPar.Ok (P : MtPar) : Prop where
  m0 : 0 < P.m
  mn : P.m < P.n
  w2 : 2 < P.w
  rw : P.r ≤ P.w
  uw : P.u ≤ P.w
  sw : P.s ≤ P.w
  tw : P.t ≤ P.w
  lw : P.l ≤ P.w
  a : P.a < 2 ^ P.w
  b : P.b < 2 ^ P.w
  c : P.c < 2 ^ P.w
  d : P.d < 2 ^ P.w
  f : P.f < 2 ^ P.w

/-- the transition: `Y` is the upper `w - r` bits of `x` and the lower `r` bits of `x'`, shifted, with `a` added if `Y` is odd -/
def mtA (P : MtPar) (x x' : Nat) : Nat :=
  let y := x / 2 ^ P.r * 2 ^ P.r + x' % 2 ^ P.r
  (y / 2) ^^^ (P.a * (y % 2))

/-- the sequence satisfies the recurrence from index `k0` on -/
def MtRec (P : MtPar) (X : Nat → Nat) : Prop := ∀ k, X (k + P.n) = X (k + P.m) ^^^ mtA P (X k) (X (k + 1))

/-- the sequence of the engine seeded with `value` -/
structure IsMt (P : MtPar) (value : Nat) (X : Nat → Nat) : Prop where
  first : X 0 = value % 2 ^ P.w
  init : ∀ i, 0 < i → i < P.n → X i = (P.f * (X (i - 1) ^^^ (X (i - 1) / 2 ^ (P.w - 2))) + i) % 2 ^ P.w
  step : MtRec P X

/-- the tempering -/
def mtTemper (P : MtPar) (x : Nat) : Nat :=
  let z1 := x ^^^ ((x / 2 ^ P.u) &&& P.d)
  let z2 := z1 ^^^ ((z1 * 2 ^ P.s % 2 ^ P.w) &&& P.b)
  let z3 := z2 ^^^ ((z2 * 2 ^ P.t % 2 ^ P.w) &&& P.c)
  z3 ^^^ (z3 / 2 ^ P.l)

/-- the constants of `std::mt19937` and `std::mt19937_64` -/
def std_mt19937 : MtPar := ⟨32, 624, 397, 31, 0x9908b0df, 11, 0xffffffff, 7, 0x9d2c5680, 15, 0xefc60000, 18, 1812433253⟩
def std_mt19937_64 : MtPar :=
  ⟨64, 312, 156, 31, 0xb5026f5aa96619e9, 29, 0x5555555555555555, 17, 0x71d67fffeda60000, 37, 0xfff7eee000000000, 43, 6364136223846793005⟩

end Spec
end Sprout
