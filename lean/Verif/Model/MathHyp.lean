import Verif.Model.MathExp
import Verif.Model.MathConst

/-!
# Functions which are computed from the exponential function (`sprout/math/exp2.hpp`, `exp10.hpp`, `expm1.hpp`, `sinh.hpp`,
`cosh.hpp`, `tanh.hpp`), without the builtin functions

`F` is the floating type of the argument, `C` the format of the type of computation, `t` which type this is, and `L` the format
of `long double`, the type of the literals.
-/

namespace Sprout.MathHyp

open Classical MathClass MathTables MathConst MathExp

/-- the common form of `exp2` and `exp10` with the logarithm `b` of the base: `exp2_impl`, `exp2` (`sprout/math/exp2.hpp`, 41-43 and
54-65), `exp10_impl`, `exp10` (`sprout/math/exp10.hpp`, 26-28 and 38-45) -/
noncomputable def expBy (L F C : Fmt) (t : FloatTy) (b : Const) (x : FV) : Option FV :=
  if isnan x then some x
  else if x.eq (.inf true) then some (.zero false)
  else if x.eq (.inf false) then some (.inf false)
  else if x.eq (.zero false) then some (.num 1)
  else (exp C C t (C.mul (C.cvt x) (const L C b))).map F.cvt

/-- `exp2` (`sprout/math/exp2.hpp`, 54-65) -/
noncomputable def exp2 (L F C : Fmt) (t : FloatTy) (x : FV) : Option FV := expBy L F C t .lnTwo x

/-- `exp10` (`sprout/math/exp10.hpp`, 38-45) -/
noncomputable def exp10 (L F C : Fmt) (t : FloatTy) (x : FV) : Option FV := expBy L F C t .lnTen x

/-- `expm1_impl`, `expm1` (`sprout/math/expm1.hpp`, 42-44 and 54-65) -/
noncomputable def expm1 (F C : Fmt) (t : FloatTy) (x : FV) : Option FV :=
  if isnan x then some x
  else if x.eq (.inf true) then some (.num (-1))
  else if x.eq (.inf false) then some (.inf false)
  else if x.eq (.zero false) then some x
  else (exp C C t (C.cvt x)).map fun e => F.cvt (C.sub e (.num 1))

/-- `sinh_impl_1` (`sprout/math/sinh.hpp`, 41-43) -/
noncomputable def sinhImpl1 (C : Fmt) (t : FV) : FV := C.sub (C.mul (.num (1 / 2)) t) (C.div (.num (1 / 2)) t)

/-- `sinh_impl`, `sinh` (`sprout/math/sinh.hpp`, 46-48 and 58-69) -/
noncomputable def sinh (F C : Fmt) (t : FloatTy) (x : FV) : Option FV :=
  if isnan x then some x
  else if x.eq (.inf false) then some (.inf false)
  else if x.eq (.inf true) then some (.inf true)
  else if x.eq (.zero false) then some x
  else (exp C C t (C.cvt x)).map fun e => F.cvt (sinhImpl1 C e)

/-- `cosh_impl_1` (`sprout/math/cosh.hpp`, 41-43) -/
noncomputable def coshImpl1 (C : Fmt) (t : FV) : FV := C.add (C.mul (.num (1 / 2)) t) (C.div (.num (1 / 2)) t)

/-- `cosh_impl`, `cosh` (`sprout/math/cosh.hpp`, 46-48 and 58-69) -/
noncomputable def cosh (F C : Fmt) (t : FloatTy) (x : FV) : Option FV :=
  if isnan x then some x
  else if x.eq (.inf false) ∨ x.eq (.inf true) then some (.inf false)
  else if x.eq (.zero false) then some (.num 1)
  else (exp C C t (C.cvt x)).map fun e => F.cvt (coshImpl1 C e)

/-- `tanh_impl_2` (`sprout/math/tanh.hpp`, 40-42) -/
noncomputable def tanhImpl2 (C : Fmt) (t u : FV) : FV := C.div (C.sub t u) (C.add t u)

/-- `tanh_impl_1` (`sprout/math/tanh.hpp`, 45-47) -/
noncomputable def tanhImpl1 (C : Fmt) (t : FV) : FV := tanhImpl2 C t (C.div (.num 1) t)

/-- `tanh_impl`, `tanh` (`sprout/math/tanh.hpp`, 50-52 and 62-73) -/
noncomputable def tanh (F C : Fmt) (t : FloatTy) (x : FV) : Option FV :=
  if isnan x then some x
  else if x.eq (.inf false) then some (.num 1)
  else if x.eq (.inf true) then some (.num (-1))
  else if x.eq (.zero false) then some x
  else (exp C C t (C.cvt x)).map fun e => F.cvt (tanhImpl1 C e)

end Sprout.MathHyp
