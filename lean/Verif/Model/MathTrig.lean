import Verif.Model.MathMod
import Verif.Model.MathLog

/-!
# Trigonometric functions (`sprout/math/cos.hpp`, `sin.hpp`, `tan.hpp`), without the builtin functions

`F` is the floating type of the argument, `C` the format of the type of computation, `t` which type this is, and `L` the format
of `long double`, the type of the literals; `il` is the function `ilogb` of the type of computation, which `fmod` calls.
-/

namespace Sprout.MathTrig

open Classical MathRound MathClass MathTables MathExp MathConst MathMod

/-- a term of `cos_impl_1` (`sprout/math/cos.hpp`, 49) -/
noncomputable def cosTerm (C : Fmt) (t : FloatTy) (x2 : FV) (n : ℕ) : Option FV :=
  (powNU C x2 n).bind fun p => (uncheckedFactorial C t (2 * n)).map fun f =>
    C.div (C.mul (.num (if n % 2 ≠ 0 then -1 else 1)) p) f

/-- `cos_impl` (`sprout/math/cos.hpp`, 56-61); `pow2` is in `sprout/detail/pow.hpp`, 21-23 -/
noncomputable def cosImpl (L C : Fmt) (t : FloatTy) (il : FV → Option (Ret ℤ)) (x : FV) : Option (Ret FV) :=
  bindRet (fmod C C il x (const L C .twoPi)) fun r =>
    (series C (cosTerm C t (C.mul r r)) 1 (t.limit / 2 + 1)).map fun s => .ret (C.add (.num 1) s)

/-- `cos` (`sprout/math/cos.hpp`, 97-108); the sign of NaN is not modelled -/
noncomputable def cos (L F C : Fmt) (t : FloatTy) (il : FV → Option (Ret ℤ)) (x : FV) : Option (Ret FV) :=
  if isnan x then some (.ret x)
  else if x.eq (.inf false) ∨ x.eq (.inf true) then some (.ret .nan)
  else if x.eq (.zero false) then some (.ret (.num 1))
  else bindRet (cosImpl L C t il (C.cvt x)) fun r => some (.ret (F.cvt r))

/-- `sin_impl` (`sprout/math/sin.hpp`, 41-43) -/
noncomputable def sinImpl (L C : Fmt) (t : FloatTy) (il : FV → Option (Ret ℤ)) (x : FV) : Option (Ret FV) :=
  bindRet (cos L C C t il (C.add x (const L C .halfPi))) fun r => some (.ret r.neg)

/-- `sin` (`sprout/math/sin.hpp`, 53-64); the sign of NaN is not modelled -/
noncomputable def sin (L F C : Fmt) (t : FloatTy) (il : FV → Option (Ret ℤ)) (x : FV) : Option (Ret FV) :=
  if isnan x then some (.ret x)
  else if x.eq (.inf false) ∨ x.eq (.inf true) then some (.ret .nan)
  else if x.eq (.zero false) then some (.ret x)
  else bindRet (sinImpl L C t il (C.cvt x)) fun r => some (.ret (F.cvt r))

/-- `tan_impl` (`sprout/math/tan.hpp`, 41-43) -/
noncomputable def tanImpl (L C : Fmt) (t : FloatTy) (il : FV → Option (Ret ℤ)) (x : FV) : Option (Ret FV) :=
  bindRet (sin L C C t il x) fun s => bindRet (cos L C C t il x) fun c => some (.ret (C.div s c))

/-- `tan` (`sprout/math/tan.hpp`, 53-64); the sign of NaN is not modelled -/
noncomputable def tan (L F C : Fmt) (t : FloatTy) (il : FV → Option (Ret ℤ)) (x : FV) : Option (Ret FV) :=
  if isnan x then some (.ret x)
  else if x.eq (.inf false) ∨ x.eq (.inf true) then some (.ret .nan)
  else if x.eq (.zero false) then some (.ret x)
  else bindRet (tanImpl L C t il (C.cvt x)) fun r => some (.ret (F.cvt r))

end Sprout.MathTrig
