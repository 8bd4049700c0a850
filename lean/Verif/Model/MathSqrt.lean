import Verif.Model.MathClass

/-!
# Square roots (`sprout/math/sqrt.hpp`, `sprout/math/hypot.hpp`), without the builtin functions

`F` is the floating type of the argument and `C` the type of computation, as in `Verif.Model.MathRound`.
A recursion which does not end is undefined.
-/

namespace Sprout.MathSqrt

open Classical MathClass

/-- one step of Newton's method (`sprout/math/sqrt.hpp`, 41 and 47) -/
noncomputable def step (C : Fmt) (x s : FV) : FV := C.div (C.add (C.div x s) s) (.num 2)

/-- `sqrt_impl_2` (`sprout/math/sqrt.hpp`, 37-43) -/
noncomputable def sqrtImpl2 (C : Fmt) (x s s2 : FV) : Option FV :=
  if ¬ s.lt s2 then some s2 else sqrtImpl2 C x (step C x s) s
partial_fixpoint

/-- `sqrt_impl_1` (`sprout/math/sqrt.hpp`, 45-48) -/
noncomputable def sqrtImpl1 (C : Fmt) (x s : FV) : Option FV := sqrtImpl2 C x (step C x s) s

/-- `sqrt_impl` (`sprout/math/sqrt.hpp`, 50-53) -/
noncomputable def sqrtImpl (C : Fmt) (x : FV) : Option FV := sqrtImpl1 C x (if (FV.num 1).lt x then x else .num 1)

/-- `sqrt` (`sprout/math/sqrt.hpp`, 63-75); the sign of NaN is not modelled -/
noncomputable def sqrt (F C : Fmt) (x : FV) : Option FV :=
  if isnan x then some x
  else if x.eq (.inf false) then some (.inf false)
  else if x.lt (.zero false) then some .nan
  else if x.eq (.zero false) then some x
  else (sqrtImpl C (C.cvt x)).map F.cvt

/-- `hypot_impl_2` (`sprout/math/hypot.hpp`, 43-45); the inner `sqrt` is that of the type of computation -/
noncomputable def hypotImpl2 (C : Fmt) (t w : FV) : Option FV :=
  (sqrt C C (C.add (.num 1) (C.mul w w))).map (C.mul t)

/-- `hypot_impl_1` (`sprout/math/hypot.hpp`, 48-53) -/
noncomputable def hypotImpl1 (C : Fmt) (x y : FV) : Option FV :=
  if x.lt y then hypotImpl2 C y (C.div x y) else hypotImpl2 C x (C.div y x)

/-- `hypot_impl` (`sprout/math/hypot.hpp`, 56-58) -/
noncomputable def hypotImpl (C : Fmt) (x y : FV) : Option FV := hypotImpl1 C x.abs y.abs

/-- `hypot` (`sprout/math/hypot.hpp`, 68-86) -/
noncomputable def hypot (F C : Fmt) (x y : FV) : Option FV :=
  if y.eq (.inf false) ∨ y.eq (.inf true) then some (.inf false)
  else if x.eq (.inf false) ∨ x.eq (.inf true) then some (.inf false)
  else if isnan y then some y
  else if isnan x then some x
  else if y.eq (.zero false) then some x.abs
  else if x.eq (.zero false) then some y.abs
  else (hypotImpl C (C.cvt x) (C.cvt y)).map F.cvt

end Sprout.MathSqrt
