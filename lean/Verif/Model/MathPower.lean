import Verif.Model.MathMod
import Verif.Model.MathLog

/-!
# Powers (`sprout/math/pow.hpp`, `cbrt.hpp`), without the builtin functions

`F` is the floating type of the arguments, `C` the format of the type of computation, `t` which type this is, and `L` the format
of `long double`, the type of the literals; `il` is `ilogb` of the type of computation, and `noerr` whether rounding of large values
does not throw.
-/

namespace Sprout.MathPower

open Classical MathClass MathRound MathTables MathConst MathExp MathLog MathMod

/-- `exp(y * log(x))` (`sprout/math/pow.hpp`, 48-50) -/
noncomputable def expLog (L C : Fmt) (t : FloatTy) (x y : FV) : Option FV :=
  (log L C C t x).bind fun l => exp C C t (C.mul y l)

/-- `pow_impl` (`sprout/math/pow.hpp`, 46-52) -/
noncomputable def powImpl (L C : Fmt) (t : FloatTy) (il : FV → Option (Ret ℤ)) (x y : FV) : Option (Ret FV) :=
  if x.lt (.zero false) then bindRet (isOdd C C il y) fun odd =>
    if odd then (expLog L C t x.neg y).map fun r => .ret r.neg else (expLog L C t x.neg y).map .ret
  else (expLog L C t x y).map .ret

/-- the conversions around `pow_impl` (`sprout/math/pow.hpp`, 98-101) -/
noncomputable def powGen (L F C : Fmt) (t : FloatTy) (il : FV → Option (Ret ℤ)) (x y : FV) : Option (Ret FV) :=
  bindRet (powImpl L C t il (C.cvt x) (C.cvt y)) fun r => some (.ret (F.cvt r))

/-- `pow` (`sprout/math/pow.hpp`, 67-104) -/
noncomputable def pow (L F C : Fmt) (t : FloatTy) (il : FV → Option (Ret ℤ)) (noerr : Bool) (x y : FV) : Option (Ret FV) :=
  if x.eq (.num 1) then some (.ret (.num 1))
  else if y.eq (.zero false) then some (.ret (.num 1))
  else if isnan y then some (.ret y)
  else if isnan x then some (.ret x)
  else if x.eq (.zero false) then
    if y.lt (.zero false) then bindRet (isOdd F C il y) fun odd =>
      some (.ret (if odd then MathClass.copysign (.inf false) x else .inf false))
    else bindRet (isOdd F C il y) fun odd => some (.ret (if odd then x else .zero false))
  else if x.eq (.num (-1)) ∧ (y.eq (.inf false) ∨ y.eq (.inf true)) then some (.ret (.num 1))
  else if y.eq (.inf true) then some (.ret (if (fabs x).lt (.num 1) then .inf false else .zero false))
  else if y.eq (.inf false) then some (.ret (if (fabs x).lt (.num 1) then .zero false else .inf false))
  else if x.eq (.inf true) then
    if y.lt (.zero false) then bindRet (isOdd F C il y) fun odd =>
      some (.ret (if odd then FV.neg (.zero false) else .zero false))
    else bindRet (isOdd F C il y) fun odd => some (.ret (if odd then .inf true else .inf false))
  else if x.eq (.inf false) then some (.ret (if y.lt (.zero false) then .zero false else .inf false))
  else if x.lt (.zero false) then bindRet (isInteger F noerr y) fun i =>
    if i = false then some (.ret .nan) else powGen L F C t il x y
  else powGen L F C t il x y

/-- `cbrt_impl` (`sprout/math/cbrt.hpp`, 41-45) -/
noncomputable def cbrtImpl (L C : Fmt) (t : FloatTy) (il : FV → Option (Ret ℤ)) (noerr : Bool) (x : FV) : Option (Ret FV) :=
  if x.lt (.zero false) then bindRet (pow L C C t il noerr x.neg (const L C .third)) fun r => some (.ret r.neg)
  else pow L C C t il noerr x (const L C .third)

/-- `cbrt` (`sprout/math/cbrt.hpp`, 55-67) -/
noncomputable def cbrt (L F C : Fmt) (t : FloatTy) (il : FV → Option (Ret ℤ)) (noerr : Bool) (x : FV) : Option (Ret FV) :=
  if isnan x then some (.ret x)
  else if x.eq (.inf false) then some (.ret (.inf false))
  else if x.eq (.inf true) then some (.ret (.inf true))
  else if x.eq (.zero false) then some (.ret x)
  else bindRet (cbrtImpl L C t il noerr (C.cvt x)) fun r => some (.ret (F.cvt r))

end Sprout.MathPower
