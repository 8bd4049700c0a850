import Verif.Model.CInt
import Verif.Model.Ascii

/-!
# Integers to strings and back

sprout/detail/math/int.hpp, sprout/integer/integer_digits.hpp, sprout/detail/char_conversion.hpp,
sprout/string/int_to_string.hpp, sprout/cstdlib/str_to_int.hpp, sprout/cstdlib/ascii_to_int.hpp.
A pointer into a null-terminated string is the list of code units from there on; reading past the end is `none`.
-/

namespace Sprout.IntStr

/-- `int_pow<T, base>(e)` (detail/math/int.hpp 46-55) -/
def intPow (T : CInt) (base : Int) : Nat → Option Int
  | 0 => some (T.conv 1)
  | e + 1 => do
    let p ← intPow T base e
    let r ← T.arith (base * p)
    some (T.conv r)

/-- `int_digits_impl<base>(val)` (60-66); its argument `val / base` never overflows for `base ≥ 2` -/
def intDigitsImpl (base val : Int) : Option Nat :=
  if val ≠ 0 then do
    let n ← intDigitsImpl base (val.tdiv base)
    some (1 + n)
  else some 0
  partial_fixpoint

/-- `int_digits<base>(val)` (67-76) -/
def intDigits (base val : Int) : Option Nat :=
  if val ≠ 0 then do
    let n ← intDigitsImpl base (val.tdiv base)
    some (1 + n)
  else some 1

/-- `int_digit_at<base>(val, digits)` (81-98) -/
def intDigitAt (T : CInt) (base val : Int) (digits : Nat) : Option Int := do
  let p ← intPow T base digits
  let q ← T.div val p
  let r ← T.rem q base
  if T.sg then (if val < 0 then T.arith (-r) else some r) else some r

/-- `integer_digits_impl<T, N, D>` (integer/integer_digits.hpp 20-28) -/
def integerDigitsImpl (T : CInt) (N D : Nat) : Nat :=
  (T.w - (if T.sg then 1 else 0)) * N / D + (if (T.w - (if T.sg then 1 else 0)) * N % D ≠ 0 then 1 else 0)

/-- `integer_digits<T, base>` (33-96); there is no specialisation for other bases, the program is ill-formed then -/
def integerDigits (T : CInt) : Nat → Option Nat
  | 2 => some (integerDigitsImpl T 1 1)
  | 3 => some (integerDigitsImpl T 630 1000)
  | 4 => some (integerDigitsImpl T 1 2)
  | 5 => some (integerDigitsImpl T 430 1000)
  | 6 => some (integerDigitsImpl T 386 1000)
  | 7 => some (integerDigitsImpl T 356 1000)
  | 8 => some (integerDigitsImpl T 1 3)
  | 9 => some (integerDigitsImpl T 315 1000)
  | 10 => some (integerDigitsImpl T 301 1000)
  | 11 => some (integerDigitsImpl T 289 1000)
  | 12 => some (integerDigitsImpl T 278 1000)
  | 13 => some (integerDigitsImpl T 270 1000)
  | 14 => some (integerDigitsImpl T 262 1000)
  | 15 => some (integerDigitsImpl T 255 1000)
  | 16 => some (integerDigitsImpl T 1 4)
  | _ => none

/-- `int_to_char<Elem>(val)` (detail/char_conversion.hpp 32-39); a failed assertion is `none` unless assertions are disabled -/
def intToChar (ndebug : Bool) (v : Int) : Option Int :=
  if ndebug || (decide (0 ≤ v) && decide (v < 10)) then some (0x30 + v) else none

/-- a `sprout::basic_string`: the length and the array of `N + 1` elements -/
structure Str where
  len : Nat
  elems : List Int
  deriving DecidableEq

/-- `raw_construct` (string/string.hpp, `string_raw_construct_t`): the arguments at positions below `n`, zeros elsewhere -/
def rawConstruct (N n : Nat) (args : List Int) : Str :=
  ⟨n, (List.range (N + 1)).map fun i => if i < n then args.getD i 0 else 0⟩

/-- the pack expansion `(Indexes < digits ? int_to_char(int_digit_at(val, digits - 1 - Indexes)) : Elem())...`
(string/int_to_string.hpp 49-51) -/
def digitChars (ndebug : Bool) (T : CInt) (base val : Int) (digits cap : Nat) : Option (List Int) :=
  (List.range cap).mapM fun i =>
    if i < digits then do
      let d ← intDigitAt T base val (digits - 1 - i)
      intToChar ndebug d
    else some 0

/-- `int_to_string<Elem, base>(val)` (string/int_to_string.hpp 29-35, 38-92) -/
def intToString (ndebug : Bool) (T : CInt) (base : Nat) (val : Int) : Option Str := do
  let cap ← integerDigits T base
  let digits ← intDigits base val
  let cs ← digitChars ndebug T base val digits cap
  if T.sg then
    if val < 0 then some (rawConstruct (cap + 1) (digits + 1) (0x2D :: cs))
    else some (rawConstruct (cap + 1) digits cs)
  else some (rawConstruct cap digits cs)

/-! ## parsing -/

/-- `char_to_int<T>(c, base)` (detail/char_conversion.hpp 41-52) -/
def charToInt (T : CInt) (c : Int) (base : Int) : Int :=
  if Ascii.isdigit c && decide (c - 0x30 < base) then T.conv (c - 0x30)
  else if Ascii.islower c && decide (c - 0x61 + 10 < base) then T.conv (c - 0x61 + 10)
  else if Ascii.isupper c && decide (c - 0x41 + 10 < base) then T.conv (c - 0x41 + 10)
  else T.conv (-1)

/-- the test `val > (max - x - (negative ? 1 : 0)) / base` -/
def overflows (T : CInt) (base val x : Int) (negative : Bool) : Option Bool := do
  let a ← T.arith (T.max - x)
  let b ← T.arith (a - if negative then 1 else 0)
  let q ← T.div b base
  some (decide (q < val))

/-- `str_to_int_impl_1` (cstdlib/str_to_int.hpp 30-44); `x` is the digit `*str`, so `str` is not past the end -/
def strToIntImpl1 (T : CInt) (base : Int) (negative : Bool) : (str : List Int) → (val x : Int) → Option Int
  | [], _, _ => none
  | _ :: str, val, x =>
    if x = T.conv (-1) then
      if negative then do
        let r ← T.arith (-1 * val)
        some (T.conv r)
      else some val
    else do
      let o ← overflows T base val x negative
      if o then some (if negative then T.min else T.max)
      else do
        let v ← T.arith (val * base)
        let v ← T.arith (v + x)
        let c ← rd str 0
        strToIntImpl1 T base negative str (T.conv v) (charToInt T c base)

/-- `str_to_int_impl` (45-74) -/
def strToIntImpl (T : CInt) (str : List Int) (base : Int) (negative : Bool) : Option Int := do
  let c ← rd str 0
  if c = 0x30 then do
    let d ← rd str 1
    if d = 0x78 ∨ d = 0x58 then do
      let e ← rd str 2
      let base := if base ≠ 0 then base else 16
      strToIntImpl1 T base negative (str.drop 2) 0 (charToInt T e base)
    else
      let base := if base ≠ 0 then base else 8
      strToIntImpl1 T base negative (str.drop 1) 0 (charToInt T d base)
  else
    let base := if base ≠ 0 then base else 10
    strToIntImpl1 T base negative str 0 (charToInt T c base)

/-- `str_to_int<T>(str, base)` (75-104, 146-162): the unsigned version (75-88) does not look for '-' -/
def strToInt (T : CInt) : List Int → Int → Option Int
  | [], _ => none
  | c :: str, base =>
    if Ascii.isspace c then strToInt T str base
    else if T.sg ∧ c = 0x2D then strToIntImpl T str base true
    else if c = 0x2B then strToIntImpl T str base false
    else strToIntImpl T (c :: str) base false

/-- `ascii_to_int_impl` (cstdlib/ascii_to_int.hpp 27-42) -/
def asciiToIntImpl (T : CInt) (negative : Bool) : List Int → Int → Option Int
  | [], _ => none
  | c :: str, val =>
    if ¬ Ascii.isdigit c then
      if negative then do
        let r ← T.arith (-val)
        some (T.conv r)
      else some val
    else do
      let o ← overflows T 10 val (c - 0x30) negative
      if o then some (if negative then T.min else T.max)
      else do
        let v ← T.arith (val * 10)
        let v ← T.arith (v + (c - 0x30))
        asciiToIntImpl T negative str (T.conv v)

/-- `ascii_to_int<T>(str)` (43-72) -/
def asciiToInt (T : CInt) : List Int → Option Int
  | [] => none
  | c :: str =>
    if Ascii.isspace c then asciiToInt T str
    else if T.sg ∧ c = 0x2D then asciiToIntImpl T true str 0
    else if c = 0x2B then asciiToIntImpl T false str 0
    else asciiToIntImpl T false (c :: str) 0

end Sprout.IntStr
