import Verif.Model.MathLog
import Verif.Model.MathScale

/-!
# Logarithms to other bases (`sprout/math/log2.hpp`, `log10.hpp`, `log_a.hpp`, `log1p.hpp`), without the builtin functions

`F` is the floating type of the argument, `C` the format of the type of computation, `t` which type this is, and `L` the format
of `long double`, the type of the literals.
-/

namespace Sprout.MathLogs

open Classical MathClass MathTables MathConst MathLog

/-- the common form of `log2` and `log10` with the logarithm `b` of the base: `log2_impl`, `log2` (`sprout/math/log2.hpp`, 41-43 and
53-65), `log10_impl`, `log10` (`sprout/math/log10.hpp`, 41-43 and 53-65) -/
noncomputable def logBy (L F C : Fmt) (t : FloatTy) (b : Const) (x : FV) : Option FV :=
  if isnan x then some x
  else if x.eq (.zero false) then some (.inf true)
  else if x.eq (.inf false) then some (.inf false)
  else if x.lt (.zero false) then some .nan
  else if x.eq (.num 1) then some (.zero false)
  else (log L C C t (C.cvt x)).map fun l => F.cvt (C.div l (const L C b))

/-- `log2` (`sprout/math/log2.hpp`, 53-65) -/
noncomputable def log2 (L F C : Fmt) (t : FloatTy) (x : FV) : Option FV := logBy L F C t .lnTwo x

/-- `log10` (`sprout/math/log10.hpp`, 53-65) -/
noncomputable def log10 (L F C : Fmt) (t : FloatTy) (x : FV) : Option FV := logBy L F C t .lnTen x

/-- `log_a_impl` (`sprout/math/log_a.hpp`, 25-30) -/
noncomputable def logAImpl (L C : Fmt) (t : FloatTy) (x y : FV) : Option FV :=
  if x.eq (.num 2) then (log L C C t y).map fun l => C.div l (const L C .lnTwo)
  else if x.eq (.num 10) then (log L C C t y).map fun l => C.div l (const L C .lnTen)
  else (log L C C t y).bind fun l => (log L C C t x).map fun m => C.div l m

/-- `log_a` (`sprout/math/log_a.hpp`, 40-45) -/
noncomputable def logA (L F C : Fmt) (t : FloatTy) (x y : FV) : Option FV :=
  (logAImpl L C t (C.cvt x) (C.cvt y)).map F.cvt

/-- `log1p_impl`, `log1p` (`sprout/math/log1p.hpp`, 40-42 and 52-64) -/
noncomputable def log1p (L F C : Fmt) (t : FloatTy) (x : FV) : Option FV :=
  if isnan x then some x
  else if x.eq (.num (-1)) then some (.inf true)
  else if x.eq (.inf false) then some (.inf false)
  else if x.lt (.num (-1)) then some .nan
  else if x.eq (.zero false) then some x
  else (log L C C t (C.add (.num 1) (C.cvt x))).map F.cvt

/-- the logarithm which `logb` uses: `log_a(T(2), x)` (`sprout/math/logb.hpp`, 114-115). It is shown to have a value whenever it
is used. -/
noncomputable def ownLog2 (L C : Fmt) (t : FloatTy) (x : FV) : FV := (logA L C C t (.num 2) x).getD .nan

end Sprout.MathLogs
