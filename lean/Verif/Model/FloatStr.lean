import Verif.Model.IntStr
import Verif.Model.MathScale

/-!
# Floating values to strings

sprout/detail/math/float.hpp and sprout/string/float_to_string.hpp (`to_string`, `to_wstring`, `to_string_of` of floating
values). `F` is the floating type, `C` the type of computation of `floor` and `round`, `noerr` as in
`Verif.Model.MathRound`, `ndebug` for disabled assertions, `maxE10` for `numeric_limits::max_exponent10`. The sign of NaN
is not modelled.
-/

namespace Sprout.FloatStr

open Classical MathRound MathScale MathClass IntStr

variable (F C : Fmt) (noerr ndebug : Bool)

/-- `float_pow10` (detail/math/float.hpp 25-32) -/
noncomputable def floatPow10 (e : ℤ) : Option FV := powN F minInt (F.ofInt 10) e

/-! ## the decimal exponent -/

/-- `float_exponent10_positive_1` (37-51) -/
noncomputable def exponent10Positive1 (cur : ℤ × FV) (n : ℕ) : Option (ℤ × FV) :=
  if cur.2.lt (F.ofInt 10) then some cur
  else if n = 1 then some (cur.1 + 1, F.div cur.2 (F.ofInt 10))
  else do
    let c ← exponent10Positive1 cur (n / 2)
    exponent10Positive1 c (n - n / 2)
  partial_fixpoint

/-- `float_exponent10_positive_0` (52-64) -/
noncomputable def exponent10Positive0 (cur : ℤ × FV) (n : ℕ) : Option (ℤ × FV) :=
  if cur.2.lt (F.ofInt 10) then some cur
  else do
    let c ← exponent10Positive1 F cur n
    exponent10Positive0 c (n * 2)
  partial_fixpoint

/-- `float_exponent10_positive` (65-70): the pair is `(val, 0)`, with `val` converted to `int` -/
noncomputable def exponent10Positive (val : FV) : Option ℤ := do
  let v ← toInteger minInt maxInt val
  let c ← exponent10Positive0 F (v, .zero false) 1
  some c.1

/-- `float_exponent10_negative_1` (71-85) -/
noncomputable def exponent10Negative1 (cur : ℤ × FV) (n : ℕ) : Option (ℤ × FV) :=
  if ¬ cur.2.lt (.num 1) then some cur
  else if n = 1 then some (cur.1 + 1, F.mul cur.2 (F.ofInt 10))
  else do
    let c ← exponent10Negative1 cur (n / 2)
    exponent10Negative1 c (n - n / 2)
  partial_fixpoint

/-- `float_exponent10_negative_0` (86-98) -/
noncomputable def exponent10Negative0 (cur : ℤ × FV) (n : ℕ) : Option (ℤ × FV) :=
  if ¬ cur.2.lt (.num 1) then some cur
  else do
    let c ← exponent10Negative1 F cur n
    exponent10Negative0 c (n * 2)
  partial_fixpoint

/-- `float_exponent10_negative` (99-104): the pair is `(val, 0)` -/
noncomputable def exponent10Negative (val : FV) : Option ℤ := do
  let v ← toInteger minInt maxInt val
  let c ← exponent10Negative0 F (v, .zero false) 1
  some c.1

/-- `float_exponent10` (120-134) -/
noncomputable def floatExponent10 (val : FV) : Option ℤ :=
  if val.lt (.zero false) then
    if FV.lt (.num (-1)) val then exponent10Negative F val.neg else exponent10Positive F val.neg
  else if val.lt (.num 1) then exponent10Negative F val
  else exponent10Positive F val

/-! ## digits -/

/-- `float_digit_of_impl` (139-143) -/
noncomputable def floatDigitOf (val : FV) : Option (Ret ℤ) :=
  bindRet (floor F C noerr val) fun fl => (toInteger minInt maxInt (F.mul (F.sub val fl) (F.ofInt 10))).map .ret

/-- `float_digit_at` (144-151) -/
noncomputable def floatDigitAt (val : FV) (digits : ℤ) : Option (Ret ℤ) := do
  let p ← floatPow10 F (digits + 1)
  floatDigitOf F C noerr (F.div val p)

/-- `float_digits_impl_1` (156-170) -/
noncomputable def floatDigitsImpl1 (cur : ℤ × FV) (val : FV) (n : ℕ) : Option (ℤ × FV) :=
  if (F.div val cur.2).lt (.num 1) then some cur
  else if n = 1 then some (cur.1 + 1, F.mul cur.2 (F.ofInt 10))
  else do
    let c ← floatDigitsImpl1 cur val (n / 2)
    floatDigitsImpl1 c val (n - n / 2)
  partial_fixpoint

/-- `float_digits_impl` (171-183) -/
noncomputable def floatDigitsImpl (cur : ℤ × FV) (val : FV) (n : ℕ) : Option (ℤ × FV) :=
  if (F.div val cur.2).lt (.num 1) then some cur
  else do
    let c ← floatDigitsImpl1 F cur val n
    floatDigitsImpl c val (n * 2)
  partial_fixpoint

/-- `float_digits` (184-195) -/
noncomputable def floatDigits (val : FV) : Option ℤ :=
  if val.lt (.zero false) then
    if FV.lt (.num (-1)) val then some 1
    else (floatDigitsImpl F (1, F.ofInt 10) val.neg 1).map Prod.fst
  else if val.lt (.num 1) then some 1
  else (floatDigitsImpl F (1, F.ofInt 10) val 1).map Prod.fst

/-- `float_digits_checked` (200-214) -/
noncomputable def floatDigitsChecked (val : FV) : Option (Ret ℤ) := do
  let digits ← floatDigits F val
  if val.eq (.zero false) then some (.ret digits)
  else bindRet (floatDigitAt F C noerr val (digits - 1)) fun d => some (.ret (if d = 0 then digits - 1 else digits))

/-- `float_round_at` (219-231) -/
noncomputable def floatRoundAt (val : FV) (digits : ℤ) : Option (Ret FV) := do
  let p10 ← floatPow10 F digits
  bindRet (round F C noerr (F.mul val p10)) fun r => some (.ret (F.div r p10))

/-! ## strings -/

/-- a pack expansion of expressions which may throw -/
def packRet (f : ℕ → Option (Ret ℤ)) : List ℕ → Option (Ret (List ℤ))
  | [] => some (.ret [])
  | i :: l => bindRet (f i) fun c => bindRet (packRet f l) fun cs => some (.ret (c :: cs))

/-- the argument for one index (string/float_to_string.hpp 55-60); `decimal_places_length` is 6 -/
noncomputable def fixedChar (val : FV) (digits : ℕ) (v : ℤ) (i : ℕ) : Option (Ret ℤ) :=
  if i < digits then
    bindRet (floatDigitAt F C noerr val (digits - 1 - i)) fun d => (intToChar ndebug d).map .ret
  else if i = digits then some (.ret 0x2E)
  else if i < digits + 1 + 6 then do
    let d ← intDigitAt CInt.int32 10 v (digits + 6 - i)
    let c ← intToChar ndebug d
    some (.ret c)
  else some (.ret 0)

/-- `float_to_string_impl` (46-72); `printed_float_digits` (38-44) is `max_exponent10 + 8` -/
noncomputable def floatToStringImpl (maxE10 : ℕ) (val : FV) (negative : Bool) (digits : ℕ) (v : ℤ) : Option (Ret Str) :=
  bindRet (packRet (fixedChar F C noerr ndebug val digits v) (List.range (maxE10 + 8 - 1))) fun cs =>
    if negative then some (.ret (rawConstruct (maxE10 + 8) (digits + 2 + 6) (0x2D :: cs)))
    else some (.ret (rawConstruct (maxE10 + 8) (digits + 1 + 6) cs))

/-- `detail::float_to_string` (73-80); `digits` is not negative -/
noncomputable def floatToString1 (maxE10 : ℕ) (val : FV) (negative : Bool) (digits : ℤ) : Option (Ret Str) :=
  bindRet (floor F C noerr val) fun fl => do
    let p ← intPow CInt.int32 10 6
    let v ← toInteger minInt maxInt (F.mul (F.sub val fl) (F.ofInt p))
    floatToStringImpl F C noerr ndebug maxE10 val negative digits.toNat v

/-- `float_to_string` (86-105) -/
noncomputable def floatToString (maxE10 : ℕ) (val : FV) : Option (Ret Str) :=
  if isinf val then
    some (.ret (if signbit val then rawConstruct (maxE10 + 8) 4 [0x2D, 0x69, 0x6E, 0x66]
      else rawConstruct (maxE10 + 8) 3 [0x69, 0x6E, 0x66]))
  else if isnan val then
    some (.ret (if signbit val then rawConstruct (maxE10 + 8) 4 [0x2D, 0x6E, 0x61, 0x6E]
      else rawConstruct (maxE10 + 8) 3 [0x6E, 0x61, 0x6E]))
  else
    bindRet (floatRoundAt F C noerr (if val.lt (.zero false) then val.neg else val) 6) fun r =>
      bindRet (floatDigitsChecked F C noerr val) fun d =>
        floatToString1 F C noerr ndebug maxE10 r (signbit val) d

/-- the argument for one index (137-146); `e10` is the number of digits of the exponent -/
noncomputable def expChar (val : FV) (exponent10 : ℤ) (e10 i : ℕ) : Option (Ret ℤ) :=
  if i = 0 then bindRet (floatDigitAt F C noerr val 0) fun d => (intToChar ndebug d).map .ret
  else if i = 1 then some (.ret 0x2E)
  else if i < 2 + 6 then bindRet (floatDigitAt F C noerr val (1 - i)) fun d => (intToChar ndebug d).map .ret
  else if i = 2 + 6 then some (.ret 0x65)
  else if i = 3 + 6 then some (.ret (if exponent10 < 0 then 0x2D else 0x2B))
  else if i < 4 + 6 + e10 then do
    let d ← intDigitAt CInt.int32 10 exponent10 (3 + 6 + e10 - i)
    let c ← intToChar ndebug d
    some (.ret c)
  else some (.ret 0)

/-- `detail::float_to_string_exp` (129-162); `cap` is `printed_float_exp_digits` (120-126) -/
noncomputable def floatToStringExp1 (cap : ℕ) (val : FV) (negative : Bool) (exponent10 : ℤ) (e10 : ℕ) : Option (Ret Str) :=
  bindRet (packRet (expChar F C noerr ndebug val exponent10 e10) (List.range (cap - 1))) fun cs =>
    if negative then some (.ret (rawConstruct cap (5 + 6 + e10) (0x2D :: cs)))
    else some (.ret (rawConstruct cap (4 + 6 + e10) cs))

/-- `float_to_string_exp` (168-192) -/
noncomputable def floatToStringExp (maxE10 : ℕ) (val : FV) : Option (Ret Str) := do
  let m ← intDigits 10 maxE10
  let cap := 5 + 6 + Nat.max m 2
  if isinf val then
    some (.ret (if signbit val then rawConstruct cap 4 [0x2D, 0x69, 0x6E, 0x66] else rawConstruct cap 3 [0x69, 0x6E, 0x66]))
  else if isnan val then
    some (.ret (if signbit val then rawConstruct cap 4 [0x2D, 0x6E, 0x61, 0x6E] else rawConstruct cap 3 [0x6E, 0x61, 0x6E]))
  else do
    let e ← floatExponent10 F val
    let p ← floatPow10 F e
    let e10 ← intDigits 10 e
    bindRet (floatRoundAt F C noerr (F.div (if val.lt (.zero false) then val.neg else val) p) 6) fun r =>
      floatToStringExp1 F C noerr ndebug cap r (signbit val) e (Nat.max e10 2)

end Sprout.FloatStr
