import Verif.Model.MathLog

/-!
# The arc tangent (`sprout/math/atan.hpp`, `atan2.hpp`), without the builtin functions

`F` is the floating type of the argument, `C` the format of the type of computation, `t` which type this is, and `L` the format
of `long double`, the type of the literals. The sign of NaN is not modelled.
-/

namespace Sprout.MathAtan

open Classical MathClass MathTables MathExp MathConst

/-- a term of `atan_impl_1` (`sprout/math/atan.hpp`, 45) -/
noncomputable def atanTerm (C : Fmt) (x : FV) (n : ℕ) : Option FV :=
  (powNU C x (2 * n + 1)).map fun p => C.div (C.mul (.num (if n % 2 ≠ 0 then -1 else 1)) p) (C.ofInt (2 * n + 1 : ℕ))

/-- `atan_impl` (`sprout/math/atan.hpp`, 52-59) with `atan_impl_1` (43-49), which adds the terms by halving -/
noncomputable def atanImpl (L C : Fmt) (t : FloatTy) (x : FV) : Option FV :=
  if (C.add (const L C .rootTwo) (.num 1)).lt x then
    (series C (atanTerm C (C.div (.num 1) x)) 0 (t.limit + 1)).map fun s => C.sub (const L C .halfPi) s
  else if (C.sub (const L C .rootTwo) (.num 1)).lt x then
    (series C (atanTerm C (C.div (C.sub x (.num 1)) (C.add x (.num 1)))) 0 (t.limit + 1)).map fun s =>
      C.add (const L C .quarterPi) s
  else (series C (atanTerm C x) 1 (t.limit + 1)).map fun s => C.add x s

/-- `atan` (`sprout/math/atan.hpp`, 70-84) -/
noncomputable def atan (L F C : Fmt) (t : FloatTy) (x : FV) : Option FV :=
  if isnan x then some x
  else if x.eq (.inf false) then some (const L F .halfPi)
  else if x.eq (.inf true) then some (const L F .halfPi).neg
  else if x.eq (.zero false) then some x
  else (if x.lt (.zero false) then (atanImpl L C t (C.cvt x.neg)).map FV.neg else atanImpl L C t (C.cvt x)).map F.cvt

/-- `atan2_impl` (`sprout/math/atan2.hpp`, 45-52) -/
noncomputable def atan2Impl (L C : Fmt) (t : FloatTy) (y x : FV) : Option FV :=
  if x.lt (.zero false) then
    (atan L C C t (C.div y x)).map fun a => C.add a (if y.lt (.zero false) then (const L C .pi).neg else const L C .pi)
  else atan L C C t (C.div y x)

/-- `atan2` (`sprout/math/atan2.hpp`, 71-107) -/
noncomputable def atan2 (L F C : Fmt) (t : FloatTy) (y x : FV) : Option FV :=
  if isnan y then some y
  else if isnan x then some x
  else if x.eq (.inf true) then
    some (if y.eq (.inf false) then const L F .threeQuartersPi
      else if y.eq (.inf true) then (const L F .threeQuartersPi).neg
      else copysign (const L F .pi) y)
  else if x.eq (.inf false) then
    some (if y.eq (.inf false) then const L F .quarterPi
      else if y.eq (.inf true) then (const L F .quarterPi).neg
      else F.mul (.zero false) y)
  else if y.eq (.inf false) then some (const L F .halfPi)
  else if y.eq (.inf true) then some (const L F .halfPi).neg
  else if y.eq (.zero false) then
    some (if x.lt (.zero false) then copysign (const L F .pi) y
      else if (FV.zero false).lt x then F.mul (.zero false) y
      else if signbit x then copysign (const L F .pi) y
      else F.mul (.zero false) y)
  else if x.eq (.zero false) then
    some (if y.lt (.zero false) then (const L F .halfPi).neg else const L F .halfPi)
  else (atan2Impl L C t (C.cvt y) (C.cvt x)).map F.cvt

end Sprout.MathAtan
