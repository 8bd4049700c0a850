import Verif.Model.MathScale

/-!
# Remainders (`sprout/math/`)

`F` is the floating type of the arguments and `C` the type of computation; `ilogb` is the function of the type of
computation. The result type `R` of the quotient is a signed type at least as wide as `int` with the range from `lo` to
`hi`, so that overflow is undefined.
-/

namespace Sprout.MathMod

open Classical MathRound MathClass MathScale

/-- `fmod_impl_6` (`sprout/math/fmod.hpp`, 29-34) -/
noncomputable def fmod6 (C : Fmt) (x y x1 : FV) : FV :=
  if y.le x1 then (if x.lt (.zero false) then (C.sub x1 y).neg else C.sub x1 y)
  else if x.lt (.zero false) then x1.neg else x1

/-- `fmod_impl_5` (`sprout/math/fmod.hpp`, 37-44); `n` is the number `idiff - i` of steps to go -/
noncomputable def fmod5 (C : Fmt) (x y y1 : FV) (iscy : ℤ) : ℕ → FV → FV → Option FV
  | n + 1, x1, z =>
    if (FV.zero false).le z then fmod5 C x y y1 iscy n (C.add z z) (C.sub (C.add z z) y1)
    else fmod5 C x y y1 iscy n (C.add x1 x1) (C.sub (C.add x1 x1) y1)
  | 0, x1, _ => (scalbn C C minInt x1 iscy).map (fmod6 C x y)

/-- `fmod_impl_2`, `fmod_impl_3`, `fmod_impl_4` (`sprout/math/fmod.hpp`, 47-61). It is only called with `y <= x1`, so that
`idiff` is not negative; with a negative number of steps the loop would only end after overflow. -/
noncomputable def fmod2 (C : Fmt) (x y x1 : FV) (iscx iscy : ℤ) : Option FV :=
  if iscx - iscy < 0 then none
  else if iscx - iscy ≠ 0 then
    (scalbn C C minInt x1 (-iscx)).bind fun x1' => (scalbn C C minInt y (-iscy)).bind fun y1 =>
      fmod5 C x y y1 iscy (iscx - iscy).toNat x1' (C.sub x1' y1)
  else some (fmod6 C x y x1)

/-- `fmod_impl`, `fmod_impl_1` (`sprout/math/fmod.hpp`, 64-73), where `y` is `fabs(y)` and `x1` is `fabs(x)` -/
noncomputable def fmodImpl (C : Fmt) (ilogb : FV → Option (Ret ℤ)) (x y : FV) : Option (Ret FV) :=
  if x.abs.lt y.abs then some (.ret x)
  else bindRet (ilogb x.abs) fun ex => bindRet (ilogb y.abs) fun ey => (fmod2 C x y.abs x.abs ex ey).map .ret

/-- `fmod` (`sprout/math/fmod.hpp`, 87-103); the sign of NaN is not modelled -/
noncomputable def fmod (F C : Fmt) (ilogb : FV → Option (Ret ℤ)) (x y : FV) : Option (Ret FV) :=
  if isnan y then some (.ret (if isnan x then .nan else y))
  else if isnan x then some (.ret x)
  else if x.eq (.inf false) ∨ x.eq (.inf true) ∨ y.eq (.zero false) then some (.ret .nan)
  else if x.eq (.zero false) then some (.ret x)
  else if y.eq (.inf false) ∨ y.eq (.inf true) then some (.ret x)
  else bindRet (fmodImpl C ilogb (C.cvt x) (C.cvt y)) fun r => some (.ret (F.cvt r))

/-- `is_odd` (`sprout/math/is_odd.hpp`, 22-37) -/
noncomputable def isOdd (F C : Fmt) (ilogb : FV → Option (Ret ℤ)) (x : FV) : Option (Ret Bool) :=
  if isfinite x then bindRet (fmod F C ilogb (if x.lt (.zero false) then x.neg else x) (.num 2)) fun r =>
    some (.ret (decide (r.eq (.num 1))))
  else some (.ret false)

/-- `is_even` (`sprout/math/is_even.hpp`, 22-37) -/
noncomputable def isEven (F C : Fmt) (ilogb : FV → Option (Ret ℤ)) (x : FV) : Option (Ret Bool) :=
  if isfinite x then bindRet (fmod F C ilogb x (.num 2)) fun r => some (.ret (decide (r.eq (.zero false))))
  else some (.ret false)

/-- `rem_quo_impl_7` (`sprout/math/rem_quo.hpp`, 37-43) -/
noncomputable def remQuo7 (C : Fmt) (lo hi : ℤ) (x y : FV) (k iquo : ℤ) (x1 z : FV) : Option (FV × ℤ) :=
  if y.lt z ∨ z.eq y ∧ iquo % 2 ≠ 0 then
    (inTo lo hi (iquo + 1)).map fun q => (if x.lt (.zero false) then (C.sub x1 y).neg else C.sub x1 y, q % 8 * k)
  else some (if x.lt (.zero false) then x1.neg else x1, iquo % 8 * k)

/-- `rem_quo_impl_6` (`sprout/math/rem_quo.hpp`, 46-51) -/
noncomputable def remQuo6 (C : Fmt) (lo hi : ℤ) (x y : FV) (k iquo : ℤ) (x1 : FV) : Option (FV × ℤ) :=
  if y.le x1 then
    (inTo lo hi (iquo + 1)).bind fun q => remQuo7 C lo hi x y k q (C.sub x1 y) (C.add (C.sub x1 y) (C.sub x1 y))
  else remQuo7 C lo hi x y k iquo x1 (C.add x1 x1)

/-- `rem_quo_impl_5` (`sprout/math/rem_quo.hpp`, 54-61); `n` is the number `idiff - i` of steps to go -/
noncomputable def remQuo5 (C : Fmt) (lo hi : ℤ) (x y : FV) (k : ℤ) (y1 : FV) (iscy : ℤ) : ℕ → ℤ → FV → FV → Option (FV × ℤ)
  | n + 1, iquo, x1, z =>
    if (FV.zero false).le z then
      (inTo lo hi (iquo + iquo)).bind fun q => (inTo lo hi (q + 2)).bind fun q =>
        remQuo5 C lo hi x y k y1 iscy n q (C.add z z) (C.sub (C.add z z) y1)
    else (inTo lo hi (iquo + iquo)).bind fun q =>
      remQuo5 C lo hi x y k y1 iscy n q (C.add x1 x1) (C.sub (C.add x1 x1) y1)
  | 0, iquo, x1, _ => (scalbn C C minInt x1 iscy).bind (remQuo6 C lo hi x y k iquo)

/-- `rem_quo_impl_2`, `rem_quo_impl_3`, `rem_quo_impl_4` (`sprout/math/rem_quo.hpp`, 64-79) -/
noncomputable def remQuo2 (C : Fmt) (lo hi : ℤ) (x y : FV) (k : ℤ) (x1 : FV) (iscx iscy : ℤ) : Option (FV × ℤ) :=
  if iscx - iscy < 0 then remQuo7 C lo hi x y k 0 x1 (C.add x1 x1)
  else if iscx - iscy ≠ 0 then
    (scalbn C C minInt x1 (-iscx)).bind fun x1' => (scalbn C C minInt y (-iscy)).bind fun y1 =>
      remQuo5 C lo hi x y k y1 iscy (iscx - iscy).toNat 0 x1' (C.sub x1' y1)
  else remQuo6 C lo hi x y k 0 x1

/-- `rem_quo_impl`, `rem_quo_impl_1` (`sprout/math/rem_quo.hpp`, 82-89) -/
noncomputable def remQuoImpl (C : Fmt) (ilogb : FV → Option (Ret ℤ)) (lo hi : ℤ) (x y : FV) : Option (Ret (FV × ℤ)) :=
  bindRet (ilogb x.abs) fun ex => bindRet (ilogb y.abs) fun ey =>
    (remQuo2 C lo hi x y.abs (if signbit x != signbit y then -1 else 1) x.abs ex ey).map .ret

/-- `rem_quo` (`sprout/math/rem_quo.hpp`, 105-123); the sign of NaN is not modelled -/
noncomputable def remQuo (F C : Fmt) (ilogb : FV → Option (Ret ℤ)) (lo hi : ℤ) (x y : FV) : Option (Ret (FV × ℤ)) :=
  if y.eq (.zero false) then some (.ret (.nan, 0))
  else if isnan y then some (.ret (if isnan x then (.nan, 0) else (y, 0)))
  else if isnan x then some (.ret (x, 0))
  else if x.eq (.inf false) ∨ x.eq (.inf true) then some (.ret (.nan, 0))
  else if x.eq (.zero false) then some (.ret (x, 0))
  else if y.eq (.inf false) ∨ y.eq (.inf true) then some (.ret (x, 0))
  else bindRet (remQuoImpl C ilogb lo hi (C.cvt x) (C.cvt y)) fun r => some (.ret (F.cvt r.1, r.2))

/-- `remainder` (`sprout/math/remainder.hpp`, 51-68), with the quotient of `int` -/
noncomputable def remainder (F C : Fmt) (ilogb : FV → Option (Ret ℤ)) (x y : FV) : Option (Ret FV) :=
  if y.eq (.zero false) then some (.ret .nan)
  else if isnan y then some (.ret (if isnan x then .nan else y))
  else if isnan x then some (.ret x)
  else if x.eq (.inf false) ∨ x.eq (.inf true) then some (.ret .nan)
  else if x.eq (.zero false) then some (.ret x)
  else if y.eq (.inf false) ∨ y.eq (.inf true) then some (.ret x)
  else bindRet (remQuo F C ilogb minInt maxInt x y) fun r => some (.ret r.1)

/-- `quotient` (`sprout/math/quotient.hpp`, 32-41) -/
noncomputable def quotient (F C : Fmt) (ilogb : FV → Option (Ret ℤ)) (lo hi : ℤ) (x y : FV) : Option (Ret ℤ) :=
  if y.eq (.zero false) then some (.ret 0)
  else if isnan y ∨ isnan x then some (.ret 0)
  else if x.eq (.inf false) ∨ x.eq (.inf true) then some (.ret 0)
  else if x.eq (.zero false) then some (.ret 0)
  else if y.eq (.inf false) ∨ y.eq (.inf true) then some (.ret 0)
  else bindRet (remQuo F C ilogb lo hi x y) fun r => some (.ret r.2)

end Sprout.MathMod
