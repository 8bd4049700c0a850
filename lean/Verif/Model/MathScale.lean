import Verif.Model.MathRound
import Verif.Model.MathClass

/-!
# Powers, scaling and exponents (`sprout/math/`), without the builtin functions

`F` is the floating type of the argument and `C` the type of computation, as in `Verif.Model.MathRound`. The radix is 2.
Exponents are of a signed integer type with the least value `lo`.
-/

namespace Sprout.MathScale

open Classical MathRound MathClass

/-- `pow2` (`sprout/detail/pow.hpp`, 21-23) -/
noncomputable def pow2 (C : Fmt) (x : FV) : FV := C.mul x x

/-- `pow_n_impl` (`sprout/detail/pow.hpp`, 42-47) for positive exponents; it does not end for the exponent 0 -/
noncomputable def powNImpl (C : Fmt) (x : FV) (n : ℕ) : Option FV :=
  if n = 0 then none
  else if n = 1 then some x
  else if n % 2 = 1 then (powNImpl C x (n / 2)).map fun r => C.mul x (pow2 C r)
  else (powNImpl C x (n / 2)).map (pow2 C)
decreasing_by all_goals omega

/-- `pow_n` (`sprout/detail/pow.hpp`, 63-68) for a signed exponent; the negation of the least one overflows -/
noncomputable def powN (C : Fmt) (lo : ℤ) (x : FV) (n : ℤ) : Option FV :=
  if n = 0 then some (.num 1)
  else if 0 < n then powNImpl C x n.toNat
  else if n = lo then none
  else (powNImpl C x (-n).toNat).map fun r => C.div (.num 1) r

/-- `int` -/
def minInt : ℤ := -2 ^ 31

/-- `int` -/
def maxInt : ℤ := 2 ^ 31 - 1

/-- `std::intmax_t`, `long` -/
def minLong : ℤ := -2 ^ 63

/-- `std::intmax_t`, `long` -/
def maxLong : ℤ := 2 ^ 63 - 1

/-- `scalbn` (`sprout/math/scalbn.hpp`, 40-64), `scalbln` (`sprout/math/scalbln.hpp`, 40-64), `ldexp`
(`sprout/math/ldexp.hpp`, 40-64) -/
noncomputable def scalbn (F C : Fmt) (lo : ℤ) (x : FV) (exp : ℤ) : Option FV :=
  if isnan x then some x
  else if x.eq (.inf false) then some (.inf false)
  else if x.eq (.inf true) then some (.inf true)
  else if exp = 0 then some x
  else if x.eq (.zero false) then some x
  else (powN C lo (.num 2) exp).map fun r => F.cvt (C.mul (C.cvt x) r)

/-- `logb_impl_3_neg_lo`, `logb_impl_3_pos_lo` (`sprout/math/logb.hpp`, 45-51 and 63-69) -/
noncomputable def logbLo (C : Fmt) (x x0 base exp : FV) : Option FV :=
  if base.lt (.num 1) then logbLo C x (C.mul x0 (.num 2)) (C.div x (C.div x0 (.num 2))) (C.sub exp (.num 1))
  else some exp
partial_fixpoint

/-- `logb_impl_3_neg_hi`, `logb_impl_3_pos_hi` (`sprout/math/logb.hpp`, 54-60 and 72-78) -/
noncomputable def logbHi (C : Fmt) (x x0 base exp : FV) : Option FV :=
  if ¬ base.lt (.num 2) then logbHi C x (C.div x0 (.num 2)) (C.div x (C.mul x0 (.num 2))) (C.add exp (.num 1))
  else some exp
partial_fixpoint

/-- `logb_impl_3` (`sprout/math/logb.hpp`, 81-98), the two branches of which do the same -/
noncomputable def logb3 (C : Fmt) (x x0 base exp : FV) : Option FV :=
  if base.lt (.num 1) then logbLo C x (C.mul x0 (.num 2)) (C.div x (C.div x0 (.num 2))) (C.sub exp (.num 1))
  else if ¬ base.lt (.num 2) then
    logbHi C x (C.div x0 (.num 2)) (C.div x (C.mul x0 (.num 2))) (C.add exp (.num 1))
  else some exp

/-- `logb_impl_1`, `logb_impl_2` (`sprout/math/logb.hpp`, 101-110) -/
noncomputable def logb1 (C : Fmt) (noerr : Bool) (x exp : FV) : Option (Ret FV) :=
  bindRet (itrunc C noerr minLong maxLong exp) fun n =>
    (powN C minLong (.num 2) n).bind fun x0 => (logb3 C x x0 (C.div x x0) exp).map .ret

/-- `logb_impl` (`sprout/math/logb.hpp`, 113-117); `log2` stands for `log_a` with the base 2 -/
noncomputable def logbImpl (C : Fmt) (noerr : Bool) (log2 : FV → FV) (x : FV) : Option (Ret FV) :=
  if x.lt (.zero false) then bindRet (trunc C noerr (log2 x.neg)) (logb1 C noerr x.neg)
  else bindRet (trunc C noerr (log2 x)) (logb1 C noerr x)

/-- `logb` (`sprout/math/logb.hpp`, 127-142) -/
noncomputable def logb (F C : Fmt) (noerr : Bool) (log2 : FV → FV) (x : FV) : Option (Ret FV) :=
  if isnan x then some (.ret x)
  else if x.eq (.zero false) then some (.ret (.inf true))
  else if x.eq (.inf false) ∨ x.eq (.inf true) then some (.ret (.inf false))
  else bindRet (logbImpl C noerr log2 (C.cvt x)) fun r => some (.ret (F.cvt r))

/-- `ilogb` (`sprout/math/ilogb.hpp`, 49-58); `ilogb0` and `ilogbnan` are the macros -/
noncomputable def ilogb (F C : Fmt) (noerr : Bool) (log2 : FV → FV) (ilogb0 ilogbnan : ℤ) (x : FV) : Option (Ret ℤ) :=
  if iszero x then some (.ret ilogb0)
  else if isinf x then some (.ret maxInt)
  else if isnan x then some (.ret ilogbnan)
  else bindRet (logb F C noerr log2 x) fun r => (toInteger minInt maxInt r).map .ret

/-- `float_exponent` (`sprout/math/float_exponent.hpp`, 29-35), given the function `ilogb` -/
noncomputable def floatExponent (ilogb : FV → Option (Ret ℤ)) (x : FV) : Option (Ret ℤ) :=
  if isnan x then some (.ret 0)
  else if x.eq (.zero false) then some (.ret 0)
  else if x.eq (.inf false) ∨ x.eq (.inf true) then some (.ret 0)
  else bindRet (ilogb x) fun n => (inTo minInt maxInt (n + 1)).map .ret

/-- `float_significand` (`sprout/math/float_significand.hpp`, 30-37) -/
noncomputable def floatSignificand (F : Fmt) (ilogb : FV → Option (Ret ℤ)) (x : FV) : Option (Ret FV) :=
  if isnan x then some (.ret x)
  else if x.eq (.inf false) then some (.ret (.inf false))
  else if x.eq (.inf true) then some (.ret (.inf true))
  else if x.eq (.zero false) then some (.ret x)
  else bindRet (floatExponent ilogb x) fun n => (powN F minInt (.num 2) n).map fun r => .ret (F.div x r)

/-- `float_sig_exp` (`sprout/math/float_sig_exp.hpp`, 26-47) -/
noncomputable def floatSigExp (F : Fmt) (ilogb : FV → Option (Ret ℤ)) (x : FV) : Option (Ret (FV × ℤ)) :=
  if isnan x then some (.ret (x, 0))
  else if x.eq (.inf false) then some (.ret (.inf false, 0))
  else if x.eq (.inf true) then some (.ret (.inf true, 0))
  else if x.eq (.zero false) then some (.ret (x, 0))
  else bindRet (ilogb x) fun n => (inTo minInt maxInt (n + 1)).bind fun n =>
    (powN F minInt (.num 2) n).map fun r => .ret (F.div x r, n)

end Sprout.MathScale
