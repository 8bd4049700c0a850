import Verif.Model.Hash
import Verif.Model.MathScale

/-!
# Hash values of floating types (`sprout/functional/hash/detail/hash_float.hpp`)

`std::size_t` has 64 bits and the radix is 2. `F`, `C`, `il` are as in `Verif.Model.MathScale` (`ilogb2` is `ilogb`:
`sprout/math/ilogb2.hpp`, 34-37; `float2_sig_exp` is `float_sig_exp` then: `sprout/math/float2_sig_exp.hpp`, 24-47).
-/

namespace Sprout.Hash

open Classical MathRound MathScale MathClass

/-- `hash_float_combine`: 22-25 -/
def fcombine (seed value : ℕ) : ℕ := seed ^^^ ((value + (seed <<< 6) % 2 ^ 64 + seed >>> 2) % 2 ^ 64)

/-- conversion of an `int` to `size_t` -/
def intToSize (e : ℤ) : ℕ := (e % 2 ^ 64).toNat

/-- conversion of a floating value to `size_t` -/
noncomputable def toSize (v : FV) : Option ℕ := (toInteger 0 (2 ^ 64 - 1) v).map Int.toNat

/-- `ldexp(v - static_cast<T>(static_cast<size_t>(v)), 64)` and the `size_t` -/
noncomputable def digit (F C : Fmt) (v : FV) : Option (ℕ × FV) :=
  (toSize v).bind fun n => (scalbn F C minInt (F.sub v (F.ofInt n)) 64).map fun r => (n, r)

/-- `float_hash_value_impl_4`: 27-37, with the number of rounds left -/
noncomputable def floatHash4 (F C : Fmt) (exp : ℤ) : ℕ → ℕ → FV → Option ℕ
  | 0, seed, _ => some (fcombine seed (intToSize exp))
  | k + 1, seed, v => (digit F C v).bind fun d => floatHash4 F C exp k (fcombine seed d.1) d.2

/-- `float_hash_value_impl_2`, `float_hash_value_impl_3`: 38-52; `digits * static_log2<radix>` is `p` -/
noncomputable def floatHash3 (F C : Fmt) (v : FV) (exp : ℤ) : Option ℕ :=
  (scalbn F C minInt v 64).bind fun v => (digit F C v).bind fun d => floatHash4 F C exp ((F.p + 63) / 64) d.1 d.2

/-- `float_hash_value_impl_1`: 53-61; `max_exponent` is `emax`, `min_exponent` is `emin + p` -/
noncomputable def floatHash1 (F C : Fmt) (s : FV × ℤ) : Option ℕ :=
  if s.1.lt (.zero false) then
    (inTo minInt maxInt (s.2 + (F.emax - (F.emin + F.p)))).bind fun e => floatHash3 F C s.1.neg e
  else floatHash3 F C s.1 s.2

/-- `float_hash_value`, `float_hash_value_1`, `float_hash_value_impl`: 62-81 -/
noncomputable def floatHash (F C : Fmt) (il : FV → Option (Ret ℤ)) (v : FV) : Option (Ret ℕ) :=
  if iszero v then some (.ret 0)
  else if isinf v then some (.ret (if (FV.zero false).lt v then 2 ^ 64 - 1 else 2 ^ 64 - 2))
  else if isnan v then some (.ret (2 ^ 64 - 3))
  else bindRet (floatSigExp F il v) fun s => (floatHash1 F C s).map .ret

end Sprout.Hash
