import Verif.Model.MathRound

/-!
# Distributions of real numbers (`sprout/random/`)

An engine is a step from a state to a result and the next state, with the least and the greatest result. Engines with
integral results are modelled. The functions that take the engine by reference and change it, and those that take it as
a constant and return it with the result, differ in this only; where their texts compute different values, both are here.

Simplifications: `max() - min()` and the difference of a result and `min()` are exact (for `subtract`, which the
functions use on signed types, this is proved; the other differences are those of unsigned results). The functions of
recursion limited by depth of instantiation (`SPROUT_WORKAROUND_NOT_TERMINATE_RECURSIVE_CONSTEXPR_FUNCTION_TEMPLATE`)
are not modelled. A loop without end is `none`, as is a failed `SPROUT_ASSERT`.
-/

namespace Sprout.RandReal

open Classical

/-- an engine -/
structure Engine (σ : Type) where
  lo : ℤ
  hi : ℤ
  gen : σ → ℤ × σ

/-- the results are within the limits -/
def Engine.Ok {σ : Type} (E : Engine σ) : Prop := ∀ s, E.lo ≤ (E.gen s).1 ∧ (E.gen s).1 ≤ E.hi

/-- `subtract<T, false>`, `subtract<T, true>` (`sprout/random/detail/signed_unsigned_tools.hpp`, 20-40) for a type of
`w` bits -/
def subtract (signed : Bool) (w : ℕ) (x y : ℤ) : Option ℤ :=
  let U (v : ℤ) : ℤ := v % 2 ^ w
  if signed then
    if 0 ≤ y then some (U (U x - U y))
    else if 0 ≤ x then some (U (U (U x + U (-(y + 1))) + 1))
    else if -2 ^ (w - 1) ≤ x - y ∧ x - y < 2 ^ (w - 1) then some (U (x - y))
    else none
  else some (U (x - y))

section
variable {σ : Type} (E : Engine σ) (F : Fmt)

/-- the value computed by `uniform_01` from one result of the engine (`sprout/random/uniform_01.hpp`, 114-120, 143-149) -/
noncomputable def value01 (k : ℤ) : FV :=
  F.mul (F.ofInt (k - E.lo)) (F.div (.num 1) (F.add (F.ofInt (E.hi - E.lo)) (.num 1)))

/-- `uniform_01::operator()` (`sprout/random/uniform_01.hpp`, 99-122, 139-158) -/
noncomputable def uniform01 (s : σ) : Option (FV × σ) :=
  if (value01 E F (E.gen s).1).lt (.num 1) then some (value01 E F (E.gen s).1, (E.gen s).2)
  else uniform01 (E.gen s).2
partial_fixpoint

/-- numerator of `generate_uniform_real` (`sprout/random/uniform_real_distribution.hpp`, 63, 351) -/
noncomputable def numerator (k : ℤ) : FV := F.ofInt (k - E.lo)

/-- divisor of `generate_uniform_real` (`sprout/random/uniform_real_distribution.hpp`, 64, 352) -/
noncomputable def divisor : FV := F.add (F.ofInt (E.hi - E.lo)) (.num 1)

/-- the value computed by `generate_uniform_real` (`sprout/random/uniform_real_distribution.hpp`, 67, 336) -/
noncomputable def valueReal (a b : FV) (k : ℤ) : FV :=
  F.add (F.mul (F.div (numerator E F k) (divisor E F)) (F.sub b a)) a

/-- `generate_uniform_real` (`sprout/random/uniform_real_distribution.hpp`, 53-72, 306-354) -/
noncomputable def uniformReal (a b : FV) (s : σ) : Option (FV × σ) :=
  if ¬ (FV.zero false).lt (divisor E F) then none
  else if ¬ ((FV.zero false).le (numerator E F (E.gen s).1) ∧ (numerator E F (E.gen s).1).le (divisor E F)) then none
  else if (valueReal E F a b (E.gen s).1).lt b then some (valueReal E F a b (E.gen s).1, (E.gen s).2)
  else uniformReal a b (E.gen s).2
partial_fixpoint

/-- the constructor of `uniform_real_distribution` and its call
(`sprout/random/uniform_real_distribution.hpp`, 481-484, 509-517): the limits are asserted in order -/
noncomputable def uniformRealDist (a b : FV) (s : σ) : Option (FV × σ) :=
  if a.le b then uniformReal E F a b s else none

/-- the test of `bernoulli_distribution` for one result of the engine
(`sprout/random/bernoulli_distribution.hpp`, 87-88, 126) -/
noncomputable def bernoulliTest (p : FV) (k : ℤ) : Bool :=
  decide ((F.ofInt (k - E.lo)).le (F.mul p (F.ofInt (E.hi - E.lo))))

/-- `bernoulli_distribution::operator()` after the constructor (`sprout/random/bernoulli_distribution.hpp`, 81-101,
121-135) -/
noncomputable def bernoulli (p : FV) (s : σ) : Option (Bool × σ) :=
  if ¬ ((FV.zero false).le p ∧ p.le (.num 1)) then none
  else if p.eq (.zero false) then some (false, s)
  else some (bernoulliTest E F p (E.gen s).1, (E.gen s).2)

/-- `geometric_distribution::p` (`sprout/random/geometric_distribution.hpp`, 117-119): the result is of the integral type,
from `lo` to `hi` -/
noncomputable def geometricP (lo hi : ℤ) (p : FV) : Option ℤ := toInteger lo hi p

/-- the value computed by `geometric_distribution` from a result of `uniform_01`
(`sprout/random/geometric_distribution.hpp`, 84-86, 94, 136-138), with the logarithm `lg` -/
noncomputable def geometricValue (C : Fmt) (noerr : Bool) (lg : FV → FV) (lo hi : ℤ) (p u : FV) : Option (Ret ℤ) :=
  match MathRound.floor F C noerr (F.div (lg (F.sub (.num 1) u)) (lg (F.sub (.num 1) p))) with
  | none => none
  | some (.throw e) => some (.throw e)
  | some (.ret v) => (toInteger lo hi v).map .ret

/-- `geometric_distribution::operator()` after the constructor (`sprout/random/geometric_distribution.hpp`, 91-102,
109-112, 134-143) -/
noncomputable def geometric (C : Fmt) (noerr : Bool) (lg : FV → FV) (lo hi : ℤ) (p : FV) (s : σ) : Option (Ret ℤ × σ) :=
  if ¬ ((FV.zero false).lt p ∧ p.lt (.num 1)) then none
  else match uniform01 E F s with
    | none => none
    | some (u, s') => (geometricValue F C noerr lg lo hi p u).map fun r => (r, s')

/-- the range `r` of `generate_canonical_impl` (`sprout/random/generate_canonical.hpp`, 32, 144) -/
noncomputable def range : FV := F.add (F.sub (F.ofInt E.hi) (F.ofInt E.lo)) (.num 1)

/-- the loop of `generate_canonical_impl` (`sprout/random/generate_canonical.hpp`, 39-43, 87-112) -/
noncomputable def canonicalLoop (limit s mult : FV) (t : σ) : Option (FV × σ) :=
  if mult.lt limit then
    canonicalLoop limit (F.add s (F.mul (F.ofInt ((E.gen t).1 - E.lo)) mult)) (F.mul mult (range E F)) (E.gen t).2
  else some (F.div s mult, t)
partial_fixpoint

/-- `generate_canonical_impl` (`sprout/random/generate_canonical.hpp`, 28-44, 113-151), `limit` being
`pow(2, min(bits, digits))` -/
noncomputable def canonicalImpl (limit : FV) (t : σ) : Option (FV × σ) :=
  canonicalLoop E F limit (F.ofInt ((E.gen t).1 - E.lo)) (range E F) (E.gen t).2

/-- `generate_canonical` that changes its argument (`sprout/random/generate_canonical.hpp`, 69-83) -/
noncomputable def canonical (limit : FV) (t : σ) : Option (FV × σ) :=
  match canonicalImpl E F limit t with
  | none => none
  | some (v, t') =>
    if ¬ (FV.zero false).le v then none
    else if ¬ v.le (.num 1) then none
    else if v.eq (.num 1) then
      if (F.sub v (F.div F.eps (.num 2))).eq (.num 1) then none else some (F.sub v (F.div F.eps (.num 2)), t')
    else some (v, t')

/-- `generate_canonical` of a constant engine (`sprout/random/generate_canonical.hpp`, 203-234): the correction is made
when the value is 0 -/
noncomputable def canonicalConst (limit : FV) (t : σ) : Option (FV × σ) :=
  match canonicalImpl E F limit t with
  | none => none
  | some (v, t') =>
    if ¬ (FV.zero false).le v then none
    else if ¬ v.le (.num 1) then none
    else if v.eq (.zero false) then
      if (F.sub v (F.div F.eps (.num 2))).eq (.num 1) then none else some (F.sub v (F.div F.eps (.num 2)), t')
    else some (v, t')

end

end Sprout.RandReal
