import Verif.Model.RandArith

/-!
# `normal_distribution` (`sprout/random/normal_distribution.hpp`)

`U` stands for `uniform_01<RealType>()(eng)` (C127): the value drawn and the engine afterwards. Two versions:
with a reference to the engine (lines 214-230), which changes the distribution, and for constant engines
(119-161, 231-234), whose result holds the next distribution. The streams are not modelled, nor is the
difference between `sprout::cos` and `sprout::math::cos`. The equality of `RealType` is a parameter.
-/

namespace Sprout.RandDist.Normal
open Arith
variable {R E : Type} [Arith R]

/-- lines 100-105: the members -/
structure NDist (R : Type) where
  mean : R
  sigma : R
  r1 : R
  r2 : R
  rho : R
  valid : Bool

/-- lines 172-179: the constructor with its assertion; `none` = the assertion fails -/
def make (mean sigma : R) : Option (NDist R) :=
  if le (lit 0) sigma then some ⟨mean, sigma, lit 0, lit 0, lit 0, false⟩ else none

/-- lines 203-205: `reset` -/
def reset (d : NDist R) : NDist R := { d with valid := false }

/-- lines 209-213: `param(parm)` -/
def setParam (d : NDist R) (mean sigma : R) : NDist R := { d with mean := mean, sigma := sigma, valid := false }

/-- lines 224-229 -/
def value (d : NDist R) : R :=
  d.rho * (if d.valid then cos (twoPi * d.r1) else sin (twoPi * d.r1)) * d.sigma + d.mean

/-- lines 214-230: `operator()(Engine&)`; the value, the engine and the distribution afterwards -/
def call (U : E → R × E) (d : NDist R) (e : E) : R × E × NDist R :=
  if !d.valid then
    let a := U e
    let b := U a.2
    let d' : NDist R := { d with r1 := a.1, r2 := b.1, rho := sqrt (-lit 2 * log (lit 1 - b.1)), valid := true }
    (value d', b.2, d')
  else
    let d' : NDist R := { d with valid := false }
    (value d', e, d')

/-- lines 119-140: `generate_2` -/
def generate2 (d : NDist R) (e : E) (r1 r2 rho : R) (valid : Bool) : R × E × NDist R :=
  (rho * (if valid then cos (twoPi * r1) else sin (twoPi * r1)) * d.sigma + d.mean, e, ⟨d.mean, d.sigma, r1, r2, rho, valid⟩)

/-- lines 141-148: `generate_1_1` -/
def generate1_1 (d : NDist R) (r1 : R) (rnd : R × E) : R × E × NDist R :=
  generate2 d rnd.2 r1 rnd.1 (sqrt (-lit 2 * log (lit 1 - rnd.1))) true

/-- lines 154-161 and 149-153: `generate`, `generate_1`, `operator()(Engine const&)` -/
def callConst (U : E → R × E) (d : NDist R) (e : E) : R × E × NDist R :=
  if !d.valid then
    let a := U e
    generate1_1 d a.1 (U a.2)
  else generate2 d e d.r1 d.r2 d.rho false

/-- the values of successive calls -/
def values (f : NDist R → E → R × E × NDist R) (d : NDist R) (e : E) : Nat → List R
  | 0 => []
  | n + 1 => (f d e).1 :: values f (f d e).2.2 (f d e).2.1 n

/-- lines 271-277 with 92-94: `operator==` -/
def eqv (eq : R → R → Bool) (x y : NDist R) : Bool :=
  (eq x.mean y.mean && eq x.sigma y.sigma) && x.valid == y.valid && eq x.rho y.rho && (eq x.r1 y.r1 && eq x.r2 y.r2)

end Sprout.RandDist.Normal
