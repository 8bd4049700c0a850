import Verif.Model.MathExp
import Verif.Model.MathSqrt
import Verif.Model.MathConst

/-!
# The natural logarithm (`sprout/math/log.hpp`), without the builtin functions

`F` is the floating type of the argument, `C` the format of the type of computation, `t` which type this is, and `L` the format
of `long double`, the type of the literals.
-/

namespace Sprout.MathLog

open Classical MathClass MathTables MathExp MathSqrt MathConst

/-- a term of `log_impl_2` (`sprout/math/log.hpp`, 46) -/
noncomputable def logTerm (C : Fmt) (x : FV) (n : ℕ) : Option FV :=
  (powNU C x n).map fun p => C.div (C.mul (.num (if n % 2 ≠ 0 then 1 else -1)) p) (C.ofInt n)

/-- `log_impl_1` (`sprout/math/log.hpp`, 53-58) -/
noncomputable def logImpl1 (L C : Fmt) (t : FloatTy) (x : FV) : Option FV :=
  if ¬ (const L C .rootTwo).lt x then series C (logTerm C (C.sub x (.num 1))) 1 (t.limit + 1)
  else do
    let s ← sqrt C C x
    let l ← logImpl1 L C t s
    some (C.mul (.num 2) l)
partial_fixpoint

/-- `log_impl` (`sprout/math/log.hpp`, 61-65) -/
noncomputable def logImpl (L C : Fmt) (t : FloatTy) (x : FV) : Option FV :=
  if x.lt (.num 1) then (logImpl1 L C t (C.div (.num 1) x)).map FV.neg else logImpl1 L C t x

/-- `log` (`sprout/math/log.hpp`, 75-87); the sign of NaN is not modelled -/
noncomputable def log (L F C : Fmt) (t : FloatTy) (x : FV) : Option FV :=
  if isnan x then some x
  else if x.eq (.zero false) then some (.inf true)
  else if x.eq (.inf false) then some (.inf false)
  else if x.lt (.zero false) then some .nan
  else if x.eq (.num 1) then some (.zero false)
  else (logImpl L C t (C.cvt x)).map F.cvt

end Sprout.MathLog
