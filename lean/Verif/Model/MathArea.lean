import Verif.Model.MathLog

/-!
# Inverse hyperbolic functions (`sprout/math/asinh.hpp`, `acosh.hpp`, `atanh.hpp`), without the builtin functions

`F` is the floating type of the argument, `C` the format of the type of computation, `t` which type this is, and `L` the format
of `long double`, the type of the literals. The sign of NaN is not modelled.
-/

namespace Sprout.MathArea

open Classical MathClass MathTables MathSqrt MathLog

/-- `asinh_impl` (`sprout/math/asinh.hpp`, 41-43) -/
noncomputable def asinhImpl (L C : Fmt) (t : FloatTy) (x : FV) : Option FV :=
  (sqrt C C (C.add (C.mul x x) (.num 1))).bind fun s => log L C C t (C.add x s)

/-- `asinh` (`sprout/math/asinh.hpp`, 53-64) -/
noncomputable def asinh (L F C : Fmt) (t : FloatTy) (x : FV) : Option FV :=
  if isnan x then some x
  else if x.eq (.inf false) then some (.inf false)
  else if x.eq (.inf true) then some (.inf true)
  else if x.eq (.zero false) then some x
  else (asinhImpl L C t (C.cvt x)).map F.cvt

/-- `acosh_impl` (`sprout/math/acosh.hpp`, 41-43) -/
noncomputable def acoshImpl (L C : Fmt) (t : FloatTy) (x : FV) : Option FV :=
  (sqrt C C (C.sub (C.mul x x) (.num 1))).bind fun s => log L C C t (C.add x s)

/-- `acosh` (`sprout/math/acosh.hpp`, 53-64) -/
noncomputable def acosh (L F C : Fmt) (t : FloatTy) (x : FV) : Option FV :=
  if isnan x then some x
  else if x.lt (.num 1) then some .nan
  else if x.eq (.inf false) then some (.inf false)
  else if x.eq (.num 1) then some (.zero false)
  else (acoshImpl L C t (C.cvt x)).map F.cvt

/-- `atanh_impl` (`sprout/math/atanh.hpp`, 41-43) -/
noncomputable def atanhImpl (L C : Fmt) (t : FloatTy) (x : FV) : Option FV :=
  (log L C C t (C.div (C.add (.num 1) x) (C.sub (.num 1) x))).map fun l => C.div l (.num 2)

/-- `atanh` (`sprout/math/atanh.hpp`, 53-65) -/
noncomputable def atanh (L F C : Fmt) (t : FloatTy) (x : FV) : Option FV :=
  if isnan x then some x
  else if x.eq (.num 1) then some (.inf false)
  else if x.eq (.num (-1)) then some (.inf true)
  else if (FV.num 1).lt (fabs x) then some .nan
  else if x.eq (.zero false) then some x
  else (atanhImpl L C t (C.cvt x)).map F.cvt

end Sprout.MathArea
