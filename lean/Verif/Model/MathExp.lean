import Verif.Model.MathScale
import Verif.Model.MathTables

/-!
# Power series and the exponential function (`sprout/math/exp.hpp`), without the builtin functions

`F` is the floating type of the argument, `C` the format of the type of computation and `t` which type this is.
-/

namespace Sprout.MathExp

open Classical MathClass MathScale MathTables

/-- Sum of the terms `n`, ..., `last - 1` by halving the range: `exp_impl_1` (`sprout/math/exp.hpp`, 42-48), `cos_impl_1`
(`sprout/math/cos.hpp`, 47-53), `log_impl_2` (`sprout/math/log.hpp`, 44-50). The recursion does not end for an empty range. -/
noncomputable def series (C : Fmt) (term : ℕ → Option FV) (n last : ℕ) : Option FV :=
  if last - n = 1 then term n
  else if last ≤ n then none
  else (series C term n (n + (last - n) / 2)).bind fun a =>
    (series C term (n + (last - n) / 2) last).map fun b => C.add a b
termination_by last - n
decreasing_by all_goals omega

/-- `pow_n` (`sprout/detail/pow.hpp`, 53-57) for an unsigned exponent -/
noncomputable def powNU (C : Fmt) (x : FV) (n : ℕ) : Option FV := if n = 0 then some (.num 1) else powNImpl C x n

/-- a term of `exp_impl_1` (`sprout/math/exp.hpp`, 44) -/
noncomputable def expTerm (C : Fmt) (t : FloatTy) (x : FV) (n : ℕ) : Option FV :=
  (powNU C x n).bind fun p => (uncheckedFactorial C t n).map fun f => C.div p f

/-- `exp_impl_1(x, 1, factorial_limit<T>() / 2 + 1)` (`sprout/math/exp.hpp`, 52) -/
noncomputable def expSeries (C : Fmt) (t : FloatTy) (x : FV) : Option FV :=
  series C (expTerm C t x) 1 (t.limit / 2 + 1)

/-- `exp_impl` (`sprout/math/exp.hpp`, 51-55) -/
noncomputable def expImpl (C : Fmt) (t : FloatTy) (x : FV) : Option FV :=
  if ¬ (FV.num (-1)).lt x then (expSeries C t x.neg).map fun s => C.div (.num 1) (C.add (.num 1) s)
  else (expSeries C t x).map fun s => C.add (.num 1) s

/-- `exp` (`sprout/math/exp.hpp`, 65-76) -/
noncomputable def exp (F C : Fmt) (t : FloatTy) (x : FV) : Option FV :=
  if isnan x then some x
  else if x.eq (.inf true) then some (.zero false)
  else if x.eq (.inf false) then some (.inf false)
  else if x.eq (.zero false) then some (.num 1)
  else (expImpl C t (C.cvt x)).map F.cvt

end Sprout.MathExp
