import Verif.Model.CInt
import Verif.Model.Bits

/-!
# Compile-time integers

`sprout/integer/static_pow.hpp`, `carry_to_exp2.hpp`, `integer_digits.hpp`, `sprout/detail/integer/static_log2.hpp`,
`sprout/detail/integer.hpp`. Class templates are functions of their arguments; `none` is an ill-formed instantiation:
an undefined constant expression, a narrowing conversion of a template argument, a missing specialization or an endless recursion.
`int` has 32 bits, `long long` and `uintmax_t` 64.
-/

namespace Sprout
namespace StaticInt

/-- the value of `integral_constant<T, e>` where the exact value of `e` is `x`: a converted constant expression, so
narrowing is ill-formed (sprout/type_traits/integral_constant.hpp; `template<typename T, T v>`) -/
def icon (T : CInt) (x : Int) : Option Int := if T.Has x then some x else none

/-- the type of `T` after integral promotion -/
def promT (T : CInt) : CInt := if T.w < 32 then CInt.int32 else T

/-- `v << s` where `v` already has the promoted type `P`: the amount must be below the width; a negative or overflowing
signed operand is undefined, except that `2^(w-1)` may be produced and converts to the minimum (C++14, CWG 1457) -/
def shl (P : CInt) (v s : Int) : Option Int :=
  if s < 0 ∨ (P.w : Int) ≤ s then none
  else if P.sg then
    if v < 0 ∨ (2 : Int) ^ P.w ≤ v * 2 ^ s.toNat then none else some (P.conv (v * 2 ^ s.toNat))
  else some (P.conv (v * 2 ^ s.toNat))

/-- `static_pow2<T, X>` (static_pow.hpp 18-21); the `1` is an `int` -/
def staticPow2 (T : CInt) (X : Int) : Option Int := do
  let v ← shl CInt.int32 1 X
  icon T v

/-- `static_pow2m1<T, X>` (static_pow.hpp 23-41) -/
def staticPow2m1 (T : CInt) (X : Int) : Option Int :=
  if X = 0 then icon T 1
  else do
    let d ← (promT T).arith (X - 1)
    let a ← shl (promT T) 1 d
    let b ← (promT T).arith (a - 1)
    let c ← shl (promT T) b 1
    let e ← (promT T).arith (c + 1)
    icon T e

/-- `static_pow<T, X, Y>` (static_pow.hpp 43-73): the five specializations, chosen by `K = (Y < 3 ? int(Y) : 3)` and `Y % 2 != 0`.
The inner `static_pow<T, v, 2>` of line 60 is `v * v` (lines 54-57). -/
def staticPow (T : CInt) (X Y : Int) : Option Int :=
  if Y = 0 then icon T 1
  else if Y = 1 then icon T X
  else if Y = 2 then do
    let p ← T.arith (X * X)
    icon T p
  else if Y.tmod 2 = 0 then do
    let v ← staticPow T X (Y.tdiv 2)
    let p ← T.arith (v * v)
    icon T p
  else do
    let v ← staticPow T X (Y - 1)
    let p ← T.arith (X * v)
    icon T p
partial_fixpoint

/-- `choose_initial_n<n>::value` (static_log2.hpp 24-36) for the 64 bit argument type: `c` says whether `1 << n << n` is not zero -/
def chooseInitialN : Nat → Nat → Option Nat
  | 0, _ => none
  | fuel + 1, n =>
    if n = 0 then some 0
    else if 64 ≤ n then none
    else
      let c := if (2 ^ n * 2 ^ n) % 2 ^ 64 ≠ 0 then 1 else 0
      do
        let r ← chooseInitialN fuel (2 * c * n)
        some ((1 - c) * n + r)

/-- `initial_n` (static_log2.hpp 38-41) -/
def initialN : Option Nat := chooseInitialN 8 16

/-- `static_log2_impl<x, n>` (static_log2.hpp 43-56); only `<1, 0>` ends the recursion: every other `<x, 0>` recurs for ever or (for
`<x, 0>` with `c = 1`) instantiates itself -/
def log2Impl (x n : Nat) : Option Nat :=
  if x = 1 ∧ n = 0 then some 0
  else if n = 0 then none
  else do
    let c := if x / 2 ^ n > 0 then 1 else 0
    let r ← log2Impl (x / 2 ^ (c * n)) (n / 2)
    some (c * n + r)
termination_by n

/-- `static_log2<x>::value` (static_log2.hpp 59-67); `static_log2<0>` has no member `value` -/
def staticLog2 (x : Nat) : Option Nat :=
  if x = 0 then none
  else do
    let n ← initialN
    log2Impl x n

/-- the bits of a value of type `T` (`popcount` and `cntl0` work on those) -/
def bits (T : CInt) (x : Int) : BitVec T.w := BitVec.ofInt T.w x

/-- `carry_to_exp2_simpl` (carry_to_exp2.hpp 22-28): the shift is done in the promoted type and converted back to `IntType` -/
def carrySimpl (T : CInt) (x : Int) : Option Int := do
  let p ← popcount (bits T x)
  if p ≤ 1 then some x
  else do
    let z ← cntl0 (bits T x)
    let v ← shl (promT T) 1 ((T.w : Int) - z)
    some (T.conv v)

/-- `carry_to_exp2_uimpl` (carry_to_exp2.hpp 29-35) -/
def carryUimpl (T : CInt) (n : Int) : Option Int :=
  if n = 0 then some 0
  else do
    let v ← shl (promT T) 1 ((T.w : Int) - n)
    some (T.conv v)

/-- `carry_to_exp2` (carry_to_exp2.hpp 52-72); `-x` has the promoted type, and so has the instance of `carry_to_exp2_simpl` called with it -/
def carryToExp2 (T : CInt) (x : Int) : Option Int :=
  if T.sg then
    if x = T.min then some x
    else if x < 0 then do
      let y ← T.arith (-x)
      let v ← carrySimpl (promT T) y
      let r ← (promT T).arith (-v)
      some (T.conv r)
    else carrySimpl T x
  else do
    let p ← popcount (bits T x)
    if p ≤ 1 then some x
    else do
      let z ← cntl0 (bits T x)
      carryUimpl T z

/-- `integer_digits_impl<IntType, N, D>` (integer_digits.hpp 20-27) -/
def digitsImpl (T : CInt) (n d : Nat) : Nat :=
  let b := T.w - (if T.sg then 1 else 0)
  b * n / d + (if b * n % d ≠ 0 then 1 else 0)

/-- `integer_digits<IntType, Base>` (integer_digits.hpp 33-95); other bases have no definition -/
def integerDigits (T : CInt) (base : Nat) : Option Nat :=
  match base with
  | 2 => some (digitsImpl T 1 1)
  | 3 => some (digitsImpl T 630 1000)
  | 4 => some (digitsImpl T 1 2)
  | 5 => some (digitsImpl T 430 1000)
  | 6 => some (digitsImpl T 386 1000)
  | 7 => some (digitsImpl T 356 1000)
  | 8 => some (digitsImpl T 1 3)
  | 9 => some (digitsImpl T 315 1000)
  | 10 => some (digitsImpl T 301 1000)
  | 11 => some (digitsImpl T 289 1000)
  | 12 => some (digitsImpl T 278 1000)
  | 13 => some (digitsImpl T 270 1000)
  | 14 => some (digitsImpl T 262 1000)
  | 15 => some (digitsImpl T 255 1000)
  | 16 => some (digitsImpl T 1 4)
  | _ => none

/-! ## the least integer types -/

/-- the standard integer types in the order of `int_least_helper` -/
inductive Ty
  | llong | long | int | short | schar | ullong | ulong | uint | ushort | uchar
  deriving DecidableEq

/-- width and signedness; `L` is the width of `long` (64 on LP64, 32 on LLP64) -/
def Ty.cint (L : Nat) : Ty → CInt
  | .llong => ⟨64, true⟩
  | .long => ⟨L, true⟩
  | .int => ⟨32, true⟩
  | .short => ⟨16, true⟩
  | .schar => ⟨8, true⟩
  | .ullong => ⟨64, false⟩
  | .ulong => ⟨L, false⟩
  | .uint => ⟨32, false⟩
  | .ushort => ⟨16, false⟩
  | .uchar => ⟨8, false⟩

/-- `int_least_helper<Category>` (detail/integer.hpp 23-64) -/
def leastHelper : Nat → Option Ty
  | 1 => some .llong
  | 2 => some .long
  | 3 => some .int
  | 4 => some .short
  | 5 => some .schar
  | 6 => some .ullong
  | 7 => some .ulong
  | 8 => some .uint
  | 9 => some .ushort
  | 10 => some .uchar
  | _ => none

/-- `numeric_limits<T>::digits` -/
def digits (T : CInt) : Int := (T.w : Int) - (if T.sg then 1 else 0)

/-- a comparison as a summand -/
def b2n (b : Bool) : Nat := if b then 1 else 0

/-- `int_t<Bits>::least` (detail/integer.hpp 120-133) -/
def intT (L : Nat) (n : Int) : Option Ty :=
  leastHelper (0 + b2n (n - 1 ≤ digits (Ty.llong.cint L)) + b2n (n - 1 ≤ digits (Ty.long.cint L)) + b2n (n - 1 ≤ digits (Ty.int.cint L))
    + b2n (n - 1 ≤ digits (Ty.short.cint L)) + b2n (n - 1 ≤ digits (Ty.schar.cint L)))

/-- `uint_t<Bits>::least` (detail/integer.hpp 134-147) -/
def uintT (L : Nat) (n : Int) : Option Ty :=
  leastHelper (5 + b2n (n ≤ digits (Ty.ullong.cint L)) + b2n (n ≤ digits (Ty.ulong.cint L)) + b2n (n ≤ digits (Ty.uint.cint L))
    + b2n (n ≤ digits (Ty.ushort.cint L)) + b2n (n ≤ digits (Ty.uchar.cint L)))

/-- `int_max_value_t<MaxValue>::least` (detail/integer.hpp 149-160) -/
def intMaxT (L : Nat) (v : Int) : Option Ty :=
  leastHelper (0 + b2n (v ≤ (Ty.llong.cint L).max) + b2n (v ≤ (Ty.long.cint L).max) + b2n (v ≤ (Ty.int.cint L).max)
    + b2n (v ≤ (Ty.short.cint L).max) + b2n (v ≤ (Ty.schar.cint L).max))

/-- `int_min_value_t<MinValue>::least` (detail/integer.hpp 161-172) -/
def intMinT (L : Nat) (v : Int) : Option Ty :=
  leastHelper (0 + b2n (v ≥ (Ty.llong.cint L).min) + b2n (v ≥ (Ty.long.cint L).min) + b2n (v ≥ (Ty.int.cint L).min)
    + b2n (v ≥ (Ty.short.cint L).min) + b2n (v ≥ (Ty.schar.cint L).min))

/-- `uint_value_t<MaxValue>::least` (detail/integer.hpp 174-185): compares with the maxima of the signed types -/
def uintValueT (L : Nat) (v : Int) : Option Ty :=
  leastHelper (5 + b2n (v ≤ (Ty.llong.cint L).max) + b2n (v ≤ (Ty.long.cint L).max) + b2n (v ≤ (Ty.int.cint L).max)
    + b2n (v ≤ (Ty.short.cint L).max) + b2n (v ≤ (Ty.schar.cint L).max))

/-- `exact_signed_base_helper<Bits>`/`exact_unsigned_base_helper<Bits>` (detail/integer.hpp 66-118): for each width the first type in
the order `char`, `short`, `int`, `long`, `long long` that has it -/
def exactT (L : Nat) (sg : Bool) (n : Int) : Option Ty :=
  if n = 8 then some (if sg then .schar else .uchar)
  else if n = 16 then some (if sg then .short else .ushort)
  else if n = 32 then some (if sg then .int else .uint)
  else if n = L then some (if sg then .long else .ulong)
  else if n = 64 then some (if sg then .llong else .ullong)
  else none

end StaticInt
end Sprout
