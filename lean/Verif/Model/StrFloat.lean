import Verif.Model.IntStr
import Verif.Model.Float

/-!
# Strings to floating values

sprout/cstdlib/str_to_float.hpp (`strtof`, `strtod`, `strtold`, `atof` without an end pointer, and `stof`, `stod`, `stold`,
`from_string` of sprout/string/string_to_float.hpp without an index). With an end pointer or an index, the functions of the
C library are called; these are not modelled. A pointer into a null-terminated string is the list of code units from
there on; reading past the end is `none`. `F` is the floating type, `L` the type `long`. The parameters `str`, `negative`,
`num_digits` and `num_decimals` of the functions which do not use them are left out.
-/

namespace Sprout.StrFloat

variable (F : Fmt) (L : CInt)

/-- `str_to_float_impl_scale` (cstdlib/str_to_float.hpp 24-49); `n`, of type `long`, is not negative -/
noncomputable def scale (negExp : Bool) (number : FV) (n : Nat) (p10 : FV) : FV :=
  if n = 0 then number
  else
    scale negExp (if n % 2 = 1 then (if negExp then F.div number p10 else F.mul number p10) else number) (n / 2)
      (F.mul p10 p10)
  termination_by n

/-- `str_to_float_impl_exponent_2` (50-74); `numeric_limits::min_exponent` of `double` is -1021, the least subnormal
number `2 ^ -1074`, the precision 53; `HUGE_VAL` is the positive infinity -/
noncomputable def exponent2 (number : FV) (exponent : Int) : FV :=
  if F.emin + F.p ≤ exponent ∧ exponent ≤ F.emax then
    scale F (decide (exponent < 0)) number exponent.natAbs (F.ofInt 10)
  else .inf false

/-- `str_to_float_impl_exponent_1` (75-107): `negative` is here the sign of the exponent -/
noncomputable def exponent1 (negative : Bool) (number : FV) (exponent : Int) : List Int → Int → Option FV
  | [], _ => none
  | c :: str, n =>
    if Ascii.isdigit c then do
      let m ← L.arith (n * 10)
      let m ← L.arith (m + (c - 0x30))
      exponent1 negative number exponent str m
    else do
      let e ← L.arith (if negative then exponent + n else exponent - n)
      some (exponent2 F number e)

/-- `str_to_float_impl_exponent` (108-147) -/
noncomputable def exponent0 (str : List Int) (number : FV) (exponent : Int) : Option FV := do
  let c ← rd str 0
  if c = 0x65 ∨ c = 0x45 then do
    let d ← rd str 1
    if d = 0x2D then exponent1 F L true number exponent (str.drop 2) 0
    else exponent1 F L false number exponent (str.drop 2) 0
  else some (exponent2 F number exponent)

/-- `str_to_float_impl_decimal_1` (148-169) -/
noncomputable def decimal1 (str : List Int) (negative : Bool) (number : FV) (numDigits : Nat) (exponent : Int) : Option FV :=
  if numDigits = 0 then some (.zero false)
  else exponent0 F L str (if negative then number.neg else number) exponent

/-- `number * 10 + (*str - '0')` -/
noncomputable def digit (number : FV) (c : Int) : FV := F.add (F.mul number (F.ofInt 10)) (F.ofInt (c - 0x30))

/-- `str_to_float_impl_decimal` (170-200); `exponent`, 0 here, less the number of decimals, of type `size_t`, is
converted to `long` -/
noncomputable def decimal (negative : Bool) : List Int → FV → Nat → Nat → Option FV
  | [], _, _, _ => none
  | c :: str, number, numDigits, numDecimals =>
    if Ascii.isdigit c then decimal negative str (digit F number c) (numDigits + 1) (numDecimals + 1)
    else decimal1 F L (c :: str) negative number numDigits (L.conv (0 - numDecimals))

/-- `str_to_float_impl` (202-232) -/
noncomputable def impl (negative : Bool) : List Int → FV → Nat → Option FV
  | [], _, _ => none
  | c :: str, number, numDigits =>
    if Ascii.isdigit c then impl negative str (digit F number c) (numDigits + 1)
    else if c = 0x2E then decimal F L negative str number numDigits 0
    else decimal1 F L (c :: str) negative number numDigits 0

/-- `str_to_float<FloatType>(str)` (233-245) -/
noncomputable def strToFloat : List Int → Option FV
  | [] => none
  | c :: str =>
    if Ascii.isspace c then strToFloat str
    else if c = 0x2D then impl F L true str (.zero false) 0
    else if c = 0x2B then impl F L false str (.zero false) 0
    else impl F L false (c :: str) (.zero false) 0

end Sprout.StrFloat
