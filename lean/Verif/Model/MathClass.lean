import Verif.Model.Float

/-!
# Classification, signs, and functions of minimum, maximum and difference (`sprout/math/`), without the builtin functions
-/

namespace Sprout.MathClass

open Classical

/-- `isnan` (`sprout/math/isnan.hpp`, 35-43) -/
noncomputable def isnan (x : FV) : Bool := !decide (x.eq x)

/-- `isinf` (`sprout/math/isinf.hpp`, 36-45) -/
noncomputable def isinf (x : FV) : Bool := decide (x.eq (.inf false)) || decide (x.eq (FV.neg (.inf false)))

/-- `isfinite` (`sprout/math/isfinite.hpp`, 37-45) -/
noncomputable def isfinite (x : FV) : Bool := !(isnan x || isinf x)

/-- `iszero` (`sprout/math/iszero.hpp`, 25-27) -/
noncomputable def iszero (x : FV) : Bool := decide (x.eq (.zero false))

/-- `numeric_limits<T>::min()`: the smallest normal number -/
noncomputable def minNormal (D : Fmt) : FV := .num ((2 : ℝ) ^ (D.emin + D.p - 1))

/-- `issubnormal_or_zero` (`sprout/math/issubnormal.hpp`, 29-34), for the limit of `double`, whatever the type of `x` -/
noncomputable def issubnormalOrZero (D : Fmt) (x : FV) : Bool :=
  if (FV.zero false).lt x then decide (x.lt (minNormal D)) else decide ((minNormal D).neg.lt x)

/-- `issubnormal` (`sprout/math/issubnormal.hpp`, 44-49) -/
noncomputable def issubnormal (D : Fmt) (x : FV) : Bool := !isnan x && !iszero x && issubnormalOrZero D x

/-- `isnormal` (`sprout/math/isnormal.hpp`, 38-48) -/
noncomputable def isnormal (D : Fmt) (x : FV) : Bool := !isnan x && !isinf x && !issubnormalOrZero D x

/-- the results of `fpclassify` -/
inductive Class
  | nan | infinite | zero | subnormal | normal
  deriving DecidableEq

/-- `fpclassify` (`sprout/math/fpclassify.hpp`, 40-52) -/
noncomputable def fpclassify (D : Fmt) (x : FV) : Class :=
  if isnan x then .nan else if isinf x then .infinite else if iszero x then .zero
  else if issubnormalOrZero D x then .subnormal else .normal

/-- `isgreater` (`sprout/math/isgreater.hpp`, 37-45) -/
noncomputable def isgreater (x y : FV) : Bool := !isnan x && !isnan y && decide (y.lt x)

/-- `isgreaterequal` (`sprout/math/isgreaterequal.hpp`, 37-45) -/
noncomputable def isgreaterequal (x y : FV) : Bool := !isnan x && !isnan y && decide (y.le x)

/-- `isless` (`sprout/math/isless.hpp`, 37-45) -/
noncomputable def isless (x y : FV) : Bool := !isnan x && !isnan y && decide (x.lt y)

/-- `islessequal` (`sprout/math/islessequal.hpp`, 37-45), with `<` in line 42 -/
noncomputable def islessequal (x y : FV) : Bool := !isnan x && !isnan y && decide (x.lt y)

/-- `islessgreater` (`sprout/math/islessgreater.hpp`, 37-45) -/
noncomputable def islessgreater (x y : FV) : Bool := !isnan x && !isnan y && (decide (x.lt y) || decide (y.lt x))

/-- `isunordered` (`sprout/math/isunordered.hpp`, 37-45) -/
noncomputable def isunordered (x y : FV) : Bool := isnan x || isnan y

/-- `broken_signbit` (`sprout/math/copysign.hpp`, 38-40), which is `signbit` (`sprout/math/signbit.hpp`, 43-53) -/
noncomputable def signbit (x : FV) : Bool := !isnan x && decide (x.lt (.zero false))

/-- `copysign` (`sprout/math/copysign.hpp`, 57-74) -/
noncomputable def copysign (x y : FV) : FV :=
  if x.eq (.zero false) then
    if y.eq (.zero false) then y else if signbit y then FV.neg (.zero false) else .zero false
  else if isnan x then
    if isnan y then y else if signbit y then FV.neg .nan else .nan
  else if signbit y ≠ signbit x then x.neg
  else x

/-- `fabs` (`sprout/math/fabs.hpp`, 44-54) -/
noncomputable def fabs (x : FV) : FV :=
  if isnan x then .nan else if x.eq (.zero false) then .zero false else copysign x (.zero false)

/-- `fdim` (`sprout/math/fdim.hpp`, 45-58) -/
noncomputable def fdim (F : Fmt) (x y : FV) : FV :=
  if isnan y then y
  else if isnan x then x
  else if x.eq (.inf false) then .inf false
  else if x.eq (FV.neg (.inf false)) then .zero false
  else if y.eq (.inf false) then .zero false
  else if y.eq (FV.neg (.inf false)) then .inf false
  else if y.lt x then F.sub x y else .zero false

/-- `fmax` (`sprout/math/fmax.hpp`, 45-59) -/
noncomputable def fmax (x y : FV) : FV :=
  if isnan y then x
  else if isnan x then y
  else if y.eq (FV.neg (.inf false)) then x
  else if x.eq (.inf false) then x
  else if x.eq (FV.neg (.inf false)) then y
  else if y.eq (.inf false) then y
  else if x.lt y then y else x

/-- `fmin` (`sprout/math/fmin.hpp`, 45-59) -/
noncomputable def fmin (x y : FV) : FV :=
  if isnan y then x
  else if isnan x then y
  else if x.eq (FV.neg (.inf false)) then x
  else if y.eq (.inf false) then x
  else if y.eq (FV.neg (.inf false)) then y
  else if x.eq (.inf false) then y
  else if y.lt x then y else x

/-- `fma` (`sprout/math/fma.hpp`, 47-61) -/
noncomputable def fma (F : Fmt) (x y z : FV) : FV :=
  if isnan x then x
  else if isnan y then y
  else if isnan z then z
  else if isinf x ∧ y.eq (.zero false) then .nan
  else if isinf y ∧ x.eq (.zero false) then .nan
  else if (isinf x ∨ isinf y) ∧ isinf z ∧ ((signbit x).xor (signbit y)).xor (signbit z) = true then .nan
  else F.add (F.mul x y) z

end Sprout.MathClass
