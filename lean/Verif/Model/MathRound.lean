import Verif.Model.Exn
import Verif.Model.Float

/-!
# Rounding to integers, integer and fractional parts (`sprout/math/`), without the builtin functions

The functions take the floating type `F` of the argument, the type `C` of computation
(`float_compute`, `sprout/math/detail/float_compute.hpp`, 17-20: the wider of `double` and `F`), and
`noerr` for `SPROUT_NOERROR_LARGE_FLOAT_ROUNDING` (`sprout/config/suffix.hpp`, 257-261).
-/

namespace Sprout.MathRound

open Classical

/-- `numeric_limits<std::uintmax_t>::max()` -/
def maxU : ℤ := 2 ^ 64 - 1

/-- `SPROUT_MATH_THROW_LARGE_FLOAT_ROUNDING(e, x)` (`sprout/math/detail/config.hpp`, 23-27) -/
def large {α : Type} (noerr : Bool) (x : Option α) : Option (Ret α) :=
  if noerr then x.map .ret else some (.throw .runtimeError)

/-- `max` (`sprout/algorithm/max.hpp`) -/
noncomputable def max (x y : FV) : FV := if x.lt y then y else x

/-- `equal_to` of floating values (`sprout/math/equal_to.hpp`, 24-34) -/
noncomputable def equalTo (C : Fmt) (x y : FV) : Bool :=
  decide (x.eq y ∨ (C.sub x y).abs.le (C.mul C.eps (max (max x.abs y.abs) (.num 1))))

/-- `floor_impl_1` (`sprout/math/floor.hpp`, 42-46) -/
noncomputable def floorImpl1 (C : Fmt) (x x0 : FV) : FV :=
  if equalTo C x x0 then x0 else C.sub x0 (.num 1)

/-- `floor_impl` (`sprout/math/floor.hpp`, 49-53) -/
noncomputable def floorImpl (C : Fmt) (x : FV) : Option FV :=
  if x.lt (.zero false) then (toInteger 0 maxU x.neg).map fun n => floorImpl1 C x (C.ofInt n).neg
  else (toInteger 0 maxU x).map fun n => C.ofInt n

/-- the test for a large argument (`sprout/math/floor.hpp`, 71; `ceil.hpp`, 71; `trunc.hpp`, 54; `round.hpp`, 77) -/
def isLarge (F : Fmt) (x : FV) : Prop := (F.ofInt maxU).lt x ∨ (F.ofInt maxU).lt x.neg

/-- `floor` (`sprout/math/floor.hpp`, 63-76) -/
noncomputable def floor (F C : Fmt) (noerr : Bool) (x : FV) : Option (Ret FV) :=
  if x = .nan then some (.ret x)
  else if x.eq (.inf false) then some (.ret (.inf false))
  else if x.eq (.inf true) then some (.ret (.inf true))
  else if x.eq (.zero false) then some (.ret x)
  else if isLarge F x then large noerr (some x)
  else (floorImpl C (C.cvt x)).map fun r => .ret (F.cvt r)

/-- `ceil_impl_1` (`sprout/math/ceil.hpp`, 42-46) -/
noncomputable def ceilImpl1 (C : Fmt) (x x0 : FV) : FV :=
  if equalTo C x x0 then x0 else C.add x0 (.num 1)

/-- `ceil_impl` (`sprout/math/ceil.hpp`, 49-53) -/
noncomputable def ceilImpl (C : Fmt) (x : FV) : Option FV :=
  if x.lt (.zero false) then (toInteger 0 maxU x.neg).map fun n => (C.ofInt n).neg
  else (toInteger 0 maxU x).map fun n => ceilImpl1 C x (C.ofInt n)

/-- `ceil` (`sprout/math/ceil.hpp`, 63-76) -/
noncomputable def ceil (F C : Fmt) (noerr : Bool) (x : FV) : Option (Ret FV) :=
  if x = .nan then some (.ret x)
  else if x.eq (.inf false) then some (.ret (.inf false))
  else if x.eq (.inf true) then some (.ret (.inf true))
  else if x.eq (.zero false) then some (.ret x)
  else if isLarge F x then large noerr (some x)
  else (ceilImpl C (C.cvt x)).map fun r => .ret (F.cvt r)

/-- `trunc` (`sprout/math/trunc.hpp`, 46-60) -/
noncomputable def trunc (F : Fmt) (noerr : Bool) (x : FV) : Option (Ret FV) :=
  if x = .nan then some (.ret x)
  else if x.eq (.inf false) then some (.ret (.inf false))
  else if x.eq (.inf true) then some (.ret (.inf true))
  else if x.eq (.zero false) then some (.ret x)
  else if isLarge F x then large noerr (some x)
  else if x.lt (.zero false) then (toInteger 0 maxU x.neg).map fun n => .ret (F.ofInt n).neg
  else (toInteger 0 maxU x).map fun n => .ret (F.ofInt n)

/-- `T(0.5)` -/
noncomputable def half : FV := .num (1 / 2)

/-- `round_impl_positive` (`sprout/math/round.hpp`, 41-45) -/
noncomputable def roundPositive (C : Fmt) (x x0 : FV) : FV :=
  if (C.sub x x0).lt half then x0 else C.add x0 (.num 1)

/-- `round_impl_nagative` (`sprout/math/round.hpp`, 48-52) -/
noncomputable def roundNegative (C : Fmt) (x x0 : FV) : FV :=
  if (C.sub x0 x).lt half then x0 else C.sub x0 (.num 1)

/-- `round_impl` (`sprout/math/round.hpp`, 55-59) -/
noncomputable def roundImpl (C : Fmt) (x : FV) : Option FV :=
  if x.lt (.zero false) then (toInteger 0 maxU x.neg).map fun n => roundNegative C x (C.ofInt n).neg
  else (toInteger 0 maxU x).map fun n => roundPositive C x (C.ofInt n)

/-- `round` (`sprout/math/round.hpp`, 69-82) -/
noncomputable def round (F C : Fmt) (noerr : Bool) (x : FV) : Option (Ret FV) :=
  if x = .nan then some (.ret x)
  else if x.eq (.inf false) then some (.ret (.inf false))
  else if x.eq (.inf true) then some (.ret (.inf true))
  else if x.eq (.zero false) then some (.ret x)
  else if isLarge F x then large noerr (some x)
  else (roundImpl C (C.cvt x)).map fun r => .ret (F.cvt r)

/-- `integer_part` (`sprout/math/integer_part.hpp`, 29-36) -/
noncomputable def integerPart (F : Fmt) (noerr : Bool) (x : FV) : Option (Ret FV) :=
  if x = .nan then some (.ret x)
  else if x.eq (.inf false) then some (.ret (.inf false))
  else if x.eq (.inf true) then some (.ret (.inf true))
  else if x.eq (.zero false) then some (.ret x)
  else trunc F noerr x

/-- `copysign` (`sprout/math/copysign.hpp`): the absolute value of the first with the sign of the second argument, as
computed by the builtin function -/
noncomputable def copysign (x y : FV) : FV := if y.sgn then x.abs.neg else x.abs

/-- continuation after a call which may throw -/
def bindRet {α β : Type} (a : Option (Ret α)) (f : α → Option (Ret β)) : Option (Ret β) :=
  a >>= fun r => match r with
    | .ret v => f v
    | .throw e => some (.throw e)

/-- `fractional_part_impl` (`sprout/math/fractional_part.hpp`, 25-29) -/
noncomputable def fractionalPartImpl (F : Fmt) (x ipart : FV) : FV :=
  if x.eq ipart then F.mul (.zero false) x else copysign (F.sub x ipart) x

/-- `fractional_part` (`sprout/math/fractional_part.hpp`, 39-45) -/
noncomputable def fractionalPart (F : Fmt) (noerr : Bool) (x : FV) : Option (Ret FV) :=
  if x = .nan then some (.ret x)
  else if x.eq (.inf false) ∨ x.eq (.inf true) then some (.ret (copysign (.zero false) x))
  else if x.eq (.zero false) then some (.ret x)
  else bindRet (integerPart F noerr x) fun i => some (.ret (fractionalPartImpl F x i))

/-- `frac_int` (`sprout/math/frac_int.hpp`, 26-46) -/
noncomputable def fracInt (F : Fmt) (noerr : Bool) (x : FV) : Option (Ret (FV × FV)) :=
  bindRet (integerPart F noerr x) fun ipart => some (.ret (
    if x = .nan then (x, ipart)
    else if x.eq (.inf false) ∨ x.eq (.inf true) then (copysign (.zero false) x, ipart)
    else if x.eq (.zero false) then (x, ipart)
    else if x.eq ipart then (F.mul (.zero false) x, ipart)
    else (copysign (F.sub x ipart) x, ipart)))

/-- `is_integer` (`sprout/math/is_integer.hpp`, 22-38) -/
noncomputable def isInteger (F : Fmt) (noerr : Bool) (x : FV) : Option (Ret Bool) :=
  if x.isFin then bindRet (trunc F noerr x) fun t => some (.ret (decide (x.eq t)))
  else some (.ret false)

/-! ### Rounding to an integer type `To` of the range from `lo` to `hi` -/

/-- `x < 0`, `x > max` and the like for a limit of `To`, which is converted to `F`
(`sprout/math/itrunc.hpp`, 63; `ifloor.hpp`, 74; `iceil.hpp`, 74; `iround.hpp`, 81) -/
def outside (F : Fmt) (lo hi : ℤ) (x : FV) : Prop := (F.ofInt hi).lt x ∨ x.lt (F.ofInt lo)

/-- overflow of an operation on `To`, a signed type at least as wide as `int` -/
def inTo (lo hi n : ℤ) : Option ℤ := if lo ≤ n ∧ n ≤ hi then some n else none

/-- `itrunc` (`sprout/math/itrunc.hpp`, 60-67) -/
noncomputable def itrunc (F : Fmt) (noerr : Bool) (lo hi : ℤ) (x : FV) : Option (Ret ℤ) :=
  if x.isFin = false then some (.ret lo)
  else if x.eq (.zero false) then some (.ret 0)
  else if outside F lo hi x then large noerr (toInteger lo hi x)
  else (toInteger lo hi x).map .ret

/-- `ifloor_impl` (`sprout/math/ifloor.hpp`, 56-60) with `greater_equal` (`sprout/math/greater_equal.hpp`, 29-31) -/
noncomputable def ifloorImpl (F : Fmt) (lo hi : ℤ) (x : FV) (x0 : ℤ) : Option ℤ :=
  if equalTo F x (F.ofInt x0) ∨ (F.ofInt x0).lt x then some x0 else inTo lo hi (x0 - 1)

/-- `ifloor` (`sprout/math/ifloor.hpp`, 71-78) -/
noncomputable def ifloor (F : Fmt) (noerr : Bool) (lo hi : ℤ) (x : FV) : Option (Ret ℤ) :=
  if x.isFin = false then some (.ret lo)
  else if x.eq (.zero false) then some (.ret 0)
  else if outside F lo hi x then large noerr (toInteger lo hi x)
  else ((toInteger lo hi x).bind (ifloorImpl F lo hi x)).map .ret

/-- `iceil_impl` (`sprout/math/iceil.hpp`, 56-60) with `less_equal` (`sprout/math/less_equal.hpp`, 29-31) -/
noncomputable def iceilImpl (F : Fmt) (lo hi : ℤ) (x : FV) (x0 : ℤ) : Option ℤ :=
  if equalTo F x (F.ofInt x0) ∨ x.lt (F.ofInt x0) then some x0 else inTo lo hi (x0 + 1)

/-- `iceil` (`sprout/math/iceil.hpp`, 71-78) -/
noncomputable def iceil (F : Fmt) (noerr : Bool) (lo hi : ℤ) (x : FV) : Option (Ret ℤ) :=
  if x.isFin = false then some (.ret lo)
  else if x.eq (.zero false) then some (.ret 0)
  else if outside F lo hi x then large noerr (toInteger lo hi x)
  else ((toInteger lo hi x).bind (iceilImpl F lo hi x)).map .ret

/-- `iround_impl_positive` (`sprout/math/iround.hpp`, 56-60) -/
noncomputable def iroundPositive (F : Fmt) (lo hi : ℤ) (x : FV) (x0 : ℤ) : Option ℤ :=
  if (F.sub x (F.ofInt x0)).lt half then some x0 else inTo lo hi (x0 + 1)

/-- `iround_impl_nagative` (`sprout/math/iround.hpp`, 63-67) -/
noncomputable def iroundNegative (F : Fmt) (lo hi : ℤ) (x : FV) (x0 : ℤ) : Option ℤ :=
  if (F.sub (F.ofInt x0) x).lt half then some x0 else inTo lo hi (x0 - 1)

/-- `iround` (`sprout/math/iround.hpp`, 78-86). With `noerr` the conditional expression has the type of `x`, and is
converted back to `To`. -/
noncomputable def iround (F : Fmt) (noerr : Bool) (lo hi : ℤ) (x : FV) : Option (Ret ℤ) :=
  if x.isFin = false then (if noerr then toInteger lo hi (F.ofInt lo) else some lo).map .ret
  else if x.eq (.zero false) then some (.ret 0)
  else if outside F lo hi x then large noerr (toInteger lo hi x)
  else
    let n := if x.lt (.zero false) then (toInteger lo hi x).bind (iroundNegative F lo hi x)
      else (toInteger lo hi x).bind (iroundPositive F lo hi x)
    (if noerr then n.bind fun n => toInteger lo hi (F.ofInt n) else n).map .ret

end Sprout.MathRound
