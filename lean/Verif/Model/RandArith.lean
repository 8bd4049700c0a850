/-!
# Arithmetic of a `RealType`

The distributions of `sprout/random` are templates over the floating-point type. Their models are
written once for every type that has the operations used there; `Verif/Spec/RandArith.lean` gives the
instance of exact real numbers. `lit` converts literals (written as fractions) and integers.
`trunc` is the conversion to an integer (`none`: not a number or infinite).
-/

namespace Sprout.RandDist

class Arith (R : Type) extends Add R, Sub R, Mul R, Div R, Neg R where
  lit : Rat → R
  lt : R → R → Bool
  le : R → R → Bool
  floor : R → R
  abs : R → R
  log : R → R
  exp : R → R
  sqrt : R → R
  cos : R → R
  sin : R → R
  twoPi : R
  pow : R → R → R
  trunc : R → Option Int

/-- an `IntType` or a reference to one: the smallest and the largest value -/
structure IntTy where
  lo : Int
  hi : Int

/-- `static_cast<IntType>(x)` or the implicit conversion of a floating-point value: undefined behaviour if
the truncated value does not fit -/
def toInt {R : Type} [Arith R] (T : IntTy) (x : R) : Option Int := do
  let n ← Arith.trunc x
  if T.lo ≤ n ∧ n ≤ T.hi then some n else none

/-- `++x` and `x + 1` of a signed `IntType`: overflow is undefined behaviour -/
def incr (T : IntTy) (x : Int) : Option Int := if x + 1 ≤ T.hi then some (x + 1) else none

/-- rounds until one returns a value: `for (; ; )` in `do_generate` (poisson_distribution.hpp 198-226) and
`generate_cxx14` (binomial_distribution.hpp 231-298), the recursion of `generate` (poisson_distribution.hpp
291-329, binomial_distribution.hpp 553-680) -/
def rounds {E : Type} (rnd : E → Option (Option Int × E)) (e : E) : Option (Int × E) := do
  let r ← rnd e
  match r.1 with
  | some i => some (i, r.2)
  | none => rounds rnd r.2
partial_fixpoint

end Sprout.RandDist
