/-!
# Limits of integer types: `sprout/limits.hpp` with `SPROUT_NO_CXX11_NUMERIC_LIMITS`

The widths of the types are those of any platform; the macros of `<climits>` and `<cwchar>` and `std::numeric_limits` are taken from the standard.
-/

namespace Sprout.Limits

/-- the integer types -/
inductive Ty
  | bool | char | schar | uchar | short | ushort | int | uint | long | ulong | llong | ullong | char16 | char32 | wchar
  deriving DecidableEq

/-- a platform: the number of bits of every type, with the sign, and which of `char` and `wchar_t` are signed; `bool` has one bit -/
structure Platform where
  bits : Ty → Nat
  charSigned : Bool
  wcharSigned : Bool

/-- signedness -/
def isSigned (P : Platform) : Ty → Bool
  | .char => P.charSigned
  | .wchar => P.wcharSigned
  | .schar | .short | .int | .long | .llong => true
  | _ => false

/-- conversion to a type: modulo `2 ^ bits` (implementation-defined for signed types before C++20) -/
def castTo (P : Platform) (t : Ty) (x : Int) : Int :=
  if isSigned P t then x.bmod (2 ^ P.bits t) else x % 2 ^ P.bits t

/-- the macros `SHRT_MIN`, `INT_MIN`, `WCHAR_MIN` etc., and `std::numeric_limits<T>::min()` -/
def macroMin (P : Platform) (t : Ty) : Int := if isSigned P t then -2 ^ (P.bits t - 1) else 0

/-- the macros `SHRT_MAX`, `UINT_MAX`, `WCHAR_MAX` etc., and `std::numeric_limits<T>::max()` -/
def macroMax (P : Platform) (t : Ty) : Int := if isSigned P t then 2 ^ (P.bits t - 1) - 1 else 2 ^ P.bits t - 1

/-- `numeric_limits<uint_least16_t>` and `numeric_limits<uint_least32_t>` are those of the types `char16_t` and `char32_t`, which have the same
representation -/
def leastMin (_P : Platform) (_t : Ty) : Int := 0
/-- see `leastMin` -/
def leastMax (P : Platform) (t : Ty) : Int := 2 ^ P.bits t - 1

/-- `numeric_limits<T>::min()` (limits.hpp 160-162, with the arguments in 191-216; `char` is not among them: 70-72) -/
def min (P : Platform) (t : Ty) : Int :=
  match t with
  | .bool => castTo P .bool 0
  | .char16 => castTo P .char16 (leastMin P .char16)
  | .char32 => castTo P .char32 (castTo P .char16 (leastMin P .char32))
  | .ushort | .uint | .ulong | .ullong | .uchar => castTo P t 0
  | t => castTo P t (macroMin P t)

/-- `numeric_limits<T>::max()` (163-165, 191-216; `char`: 73-75) -/
def max (P : Platform) (t : Ty) : Int :=
  match t with
  | .bool => castTo P .bool 1
  | .char16 => castTo P .char16 (leastMax P .char16)
  | .char32 => castTo P .char32 (castTo P .char16 (leastMax P .char32))
  | t => castTo P t (macroMax P t)

/-- `numeric_limits<T>::lowest()` (166-168; `char`: 76-78) -/
def lowest (P : Platform) (t : Ty) : Int :=
  match t with
  | .char => castTo P .char (macroMin P .char)
  | t => min P t

end Sprout.Limits
