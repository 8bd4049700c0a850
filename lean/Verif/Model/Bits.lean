/-!
# Bit operations

`sprout/bit/*.hpp`, for unsigned integral types of width `w`. A value of the type is a `BitVec w`.
Operands of built-in operators first undergo integral promotion: an unsigned type narrower than `int`
(32 bits) is promoted to `int`, others stay; so expressions are evaluated at width `prom w = max w 32` and
converted back (truncated) on return. `int` is taken to be two's complement (as on every target), so
arithmetic and bitwise operators that do not overflow agree with those of `BitVec (prom w)`; the
expressions below overflow only where the promoted type is unsigned (wrap-around).

Shifts are where undefined behaviour can arise: a shift by a negative amount or by at least the
width of the promoted left operand is undefined (`none`), as is a left shift of a promoted (signed) value
whose result does not fit the unsigned version of the type (the C++11 rule as amended by CWG 1457).

The overloads under `SPROUT_USE_BUILTIN_BIT_OPERATION` (for `unsigned`, `unsigned long`, `unsigned long long`)
forward to compiler intrinsics; only `__builtin_clrsb` is modelled (`clrsbBuiltin`), since the intrinsics for
popcount, parity, clz and ctz are specified by the same sentence as the property.
-/

namespace Sprout

/-- width of the type after integral promotion -/
def prom (w : Nat) : Nat := max w 32

theorem le_prom (w : Nat) : w ≤ prom w := Nat.le_max_left _ _

/-- the promoted operand -/
def ext {w : Nat} (x : BitVec w) : BitVec (prom w) := x.setWidth (prom w)

/-- conversion of the result back to `Integral` -/
def back (w : Nat) (x : BitVec (prom w)) : BitVec w := x.setWidth w

/-- built-in `X << s`, `X` of the promoted type of a `w`-bit unsigned type -/
def shlP (w : Nat) (X : BitVec (prom w)) (s : Int) : Option (BitVec (prom w)) :=
  if 0 ≤ s ∧ s < prom w ∧ (w < 32 → X.toNat * 2 ^ s.toNat < 2 ^ 32) then some (X <<< s.toNat) else none

/-- built-in `X >> s` for a non-negative `X` -/
def shrP (w : Nat) (X : BitVec (prom w)) (s : Int) : Option (BitVec (prom w)) :=
  if 0 ≤ s ∧ s < prom w then some (X >>> s.toNat) else none

variable {w : Nat}

/-- `sprout::shlr` (bit/shlr.hpp 18-26) -/
def shlr (x : BitVec w) (s : Int) : Option (BitVec w) := (shrP w (ext x) s).map (back w)

/-- `sprout::shll` (bit/shll.hpp 18-26) -/
def shll (x : BitVec w) (s : Int) : Option (BitVec w) := (shlP w (ext x) s).map (back w)

/-- `detail::popcount` (bit/popcount.hpp 32-41) -/
def popcount (n : BitVec w) : Option Nat :=
  if n = 0 then some 0 else do
    let r ← popcount (back w (ext n &&& (ext n - 1)))
    some (1 + r)
partial_fixpoint

/-- `detail::parity_bytes<N>` (bit/parity.hpp 33-50); `N == 0` has no overload -/
def parityBytes (N : Nat) (x : BitVec w) : Option (BitVec w) :=
  if N = 0 then none
  else if N = 1 then some x else do
    let y ← shlr x (N / 2 * 8 : Nat)
    parityBytes (N / 2) (x ^^^ y)
termination_by N
decreasing_by omega

/-- `detail::parity_bits4` (bit/parity.hpp 56-60) -/
def parityBits4 (x : BitVec w) : Option (BitVec w) := do
  let y ← shlr x 4
  some (x ^^^ y)

/-- `detail::parity_bits2` (bit/parity.hpp 61-67) -/
def parityBits2 (x : BitVec w) : Option (BitVec w) := do
  let y ← shlr x 2
  parityBits4 (x ^^^ y)

/-- `detail::parity_bits1`, `parity_bits` (bit/parity.hpp 68-79) -/
def parityBits (x : BitVec w) : Option (BitVec w) := do
  let y ← shlr x 1
  parityBits2 (x ^^^ y)

/-- `sprout::parity` (bit/parity.hpp 80-96); `sizeof(Integral) = w / CHAR_BIT` -/
def parity (x : BitVec w) : Option Nat := do
  let y ← parityBits x
  let z ← parityBytes (w / 8) y
  some (z &&& 1).toNat

/-- one step `shlr(x, w - m) ? xn : type(shll(x, m), n + m)` of `clz` -/
def clzStep (m : Nat) (xn : BitVec w × Int) : Option (BitVec w × Int) := do
  let t ← shlr xn.1 ((w : Int) - m)
  if t ≠ 0 then some xn else do
    let y ← shll xn.1 m
    some (y, xn.2 + m)

/-- `detail::clz_bytes<N>` (bit/clz.hpp 35-54) -/
def clzBytes (N : Nat) (xn : BitVec w × Int) : Option (BitVec w × Int) :=
  if N = 0 then none
  else if N = 1 then some xn else do
    let yn ← clzStep (N / 2 * 8) xn
    clzBytes (N / 2) yn
termination_by N
decreasing_by omega

/-- `detail::clz_bits1` (bit/clz.hpp 60-64) -/
def clzBits1 (xn : BitVec w × Int) : Option Int := do
  let t ← shlr xn.1 ((w : Int) - 1)
  some (xn.2 - t.toNat)

/-- `detail::clz_bits2` (bit/clz.hpp 65-73) -/
def clzBits2 (xn : BitVec w × Int) : Option Int := do
  let yn ← clzStep 2 xn
  clzBits1 yn

/-- `detail::clz_bits4`, `clz_bits` (bit/clz.hpp 74-87) -/
def clzBits (xn : BitVec w × Int) : Option Int := do
  let yn ← clzStep 4 xn
  clzBits2 yn

/-- `sprout::clz` (bit/clz.hpp 88-112) -/
def clz (x : BitVec w) : Option Int :=
  if x = 0 then some w else do
    let yn ← clzBytes (w / 8) (x, 1)
    clzBits yn

/-- one step `(x & (2^m - 1)) ? xn : type(shlr(x, m), n + m)` of `ctz`; `m` is 4, 2 or a number of bits of
an unsigned type whose maximum is the mask -/
def ctzStep (m : Nat) (xn : BitVec w × Int) : Option (BitVec w × Int) :=
  if xn.1 &&& BitVec.ofNat w (2 ^ m - 1) ≠ 0 then some xn else do
    let y ← shlr xn.1 m
    some (y, xn.2 + m)

/-- `detail::ctz_bytes<N>` (bit/ctz.hpp 36-55) -/
def ctzBytes (N : Nat) (xn : BitVec w × Int) : Option (BitVec w × Int) :=
  if N = 0 then none
  else if N = 1 then some xn else do
    let yn ← ctzStep (N / 2 * 8) xn
    ctzBytes (N / 2) yn
termination_by N
decreasing_by omega

/-- `detail::ctz_bits1` (bit/ctz.hpp 61-67) -/
def ctzBits1 (xn : BitVec w × Int) : Int :=
  if xn.1 &&& 1 ≠ 0 then xn.2 else xn.2 + 1

/-- `detail::ctz_bits2` (bit/ctz.hpp 68-76) -/
def ctzBits2 (xn : BitVec w × Int) : Option Int := do
  let yn ← ctzStep 2 xn
  some (ctzBits1 yn)

/-- `detail::ctz_bits4`, `ctz_bits` (bit/ctz.hpp 77-90) -/
def ctzBits (xn : BitVec w × Int) : Option Int := do
  let yn ← ctzStep 4 xn
  ctzBits2 yn

/-- `sprout::ctz` (bit/ctz.hpp 91-115) -/
def ctz (x : BitVec w) : Option Int :=
  if x = 0 then some w else do
    let yn ← ctzBytes (w / 8) (x, 0)
    ctzBits yn

/-- `sprout::cntl0` (bit/cntl0.hpp 19-26) -/
def cntl0 (x : BitVec w) : Option Int := clz x

/-- `sprout::cntt0` (bit/cntt0.hpp 19-26) -/
def cntt0 (x : BitVec w) : Option Int := ctz x

/-- `sprout::cntt1` (bit/cntt1.hpp 19-26): `ctz(~x)`, instantiated at the promoted type -/
def cntt1 (x : BitVec w) : Option Int := ctz (~~~ ext x)

/-- `detail::clrsb` (bit/clrsb.hpp 31-35): `clz(~x)`, instantiated at the promoted type -/
def clrsb (x : BitVec w) : Option Int := clz (~~~ ext x)

/-- `__builtin_clrsb` (bit/clrsb.hpp 17-30): the number of bits following the most significant bit that
are identical to it -/
def clrsbBuiltin (x : BitVec w) : Int :=
  ((List.range (w - 1)).takeWhile (fun i => x.getLsbD (w - 2 - i) == x.getLsbD (w - 1))).length

/-- `sprout::cntl1` (bit/cntl1.hpp 19-26) -/
def cntl1 (x : BitVec w) : Option Int := clrsb x

/-- `sprout::cntl1` for `unsigned` and wider when the builtin overloads of `clrsb` are enabled -/
def cntl1Builtin (x : BitVec w) : Int := clrsbBuiltin x

/-- `detail::bit_len_8_table` (bit/bit_length.hpp 18-35) -/
def bitLenTable : List Nat := [
  0, 1, 2, 2, 3, 3, 3, 3, 4, 4, 4, 4, 4, 4, 4, 4,
  5, 5, 5, 5, 5, 5, 5, 5, 5, 5, 5, 5, 5, 5, 5, 5,
  6, 6, 6, 6, 6, 6, 6, 6, 6, 6, 6, 6, 6, 6, 6, 6,
  6, 6, 6, 6, 6, 6, 6, 6, 6, 6, 6, 6, 6, 6, 6, 6,
  7, 7, 7, 7, 7, 7, 7, 7, 7, 7, 7, 7, 7, 7, 7, 7,
  7, 7, 7, 7, 7, 7, 7, 7, 7, 7, 7, 7, 7, 7, 7, 7,
  7, 7, 7, 7, 7, 7, 7, 7, 7, 7, 7, 7, 7, 7, 7, 7,
  7, 7, 7, 7, 7, 7, 7, 7, 7, 7, 7, 7, 7, 7, 7, 7,
  8, 8, 8, 8, 8, 8, 8, 8, 8, 8, 8, 8, 8, 8, 8, 8,
  8, 8, 8, 8, 8, 8, 8, 8, 8, 8, 8, 8, 8, 8, 8, 8,
  8, 8, 8, 8, 8, 8, 8, 8, 8, 8, 8, 8, 8, 8, 8, 8,
  8, 8, 8, 8, 8, 8, 8, 8, 8, 8, 8, 8, 8, 8, 8, 8,
  8, 8, 8, 8, 8, 8, 8, 8, 8, 8, 8, 8, 8, 8, 8, 8,
  8, 8, 8, 8, 8, 8, 8, 8, 8, 8, 8, 8, 8, 8, 8, 8,
  8, 8, 8, 8, 8, 8, 8, 8, 8, 8, 8, 8, 8, 8, 8, 8,
  8, 8, 8, 8, 8, 8, 8, 8, 8, 8, 8, 8, 8, 8, 8, 8]

/-- `detail::bit_len<Size>` (bit/bit_length.hpp 36-65) -/
def bitLen (Size : Nat) (x : BitVec w) : Option (BitVec w) :=
  match Size with
  | 0 => none
  | 1 => do
    let r ← bitLenTable[(x.toNat &&& 255) % 256]?
    some (BitVec.ofNat w r)
  | next + 2 => do
    let y ← shrP w (ext x) ((next + 1) * 8 : Nat)
    let r ← bitLenTable[(y.toNat &&& 255) % 256]?
    if r ≠ 0 then some (BitVec.ofNat w (r + (next + 1) * 8)) else bitLen (next + 1) x

/-- `sprout::bit_length` (bit/bit_length.hpp 70-77) -/
def bitLength (x : BitVec w) : Option (BitVec w) := bitLen (w / 8) x

/-- `detail::bit_rev_8_table` (bit/bit_reverse.hpp 18-32) -/
def bitRevTable : List Nat := [
  0, 128, 64, 192, 32, 160, 96, 224, 16, 144, 80, 208, 48, 176, 112, 240,
  8, 136, 72, 200, 40, 168, 104, 232, 24, 152, 88, 216, 56, 184, 120, 248,
  4, 132, 68, 196, 36, 164, 100, 228, 20, 148, 84, 212, 52, 180, 116, 244,
  12, 140, 76, 204, 44, 172, 108, 236, 28, 156, 92, 220, 60, 188, 124, 252,
  2, 130, 66, 194, 34, 162, 98, 226, 18, 146, 82, 210, 50, 178, 114, 242,
  10, 138, 74, 202, 42, 170, 106, 234, 26, 154, 90, 218, 58, 186, 122, 250,
  6, 134, 70, 198, 38, 166, 102, 230, 22, 150, 86, 214, 54, 182, 118, 246,
  14, 142, 78, 206, 46, 174, 110, 238, 30, 158, 94, 222, 62, 190, 126, 254,
  1, 129, 65, 193, 33, 161, 97, 225, 17, 145, 81, 209, 49, 177, 113, 241,
  9, 137, 73, 201, 41, 169, 105, 233, 25, 153, 89, 217, 57, 185, 121, 249,
  5, 133, 69, 197, 37, 165, 101, 229, 21, 149, 85, 213, 53, 181, 117, 245,
  13, 141, 77, 205, 45, 173, 109, 237, 29, 157, 93, 221, 61, 189, 125, 253,
  3, 131, 67, 195, 35, 163, 99, 227, 19, 147, 83, 211, 51, 179, 115, 243,
  11, 139, 75, 203, 43, 171, 107, 235, 27, 155, 91, 219, 59, 187, 123, 251,
  7, 135, 71, 199, 39, 167, 103, 231, 23, 151, 87, 215, 55, 183, 119, 247,
  15, 143, 79, 207, 47, 175, 111, 239, 31, 159, 95, 223, 63, 191, 127, 255]

/-- `detail::bit_rev<Size>` (bit/bit_reverse.hpp 33-55), evaluated at the promoted type -/
def bitRev (w : Nat) (Size : Nat) (x : BitVec (prom w)) : Option (BitVec (prom w)) :=
  if Size = 0 then none
  else if Size = 1 then do
    let r ← bitRevTable[(x.toNat &&& 255) % 256]?
    some (BitVec.ofNat _ r)
  else do
    let a ← bitRev w (Size / 2) x
    let a ← shlP w a (Size / 2 * 8 : Nat)
    let y ← shrP w x (Size / 2 * 8 : Nat)
    let b ← bitRev w (Size / 2) y
    some (a ||| b)
termination_by Size
decreasing_by all_goals omega

/-- `sprout::bit_reverse` (bit/bit_reverse.hpp 60-70) -/
def bitReverse (x : BitVec w) : Option (BitVec w) := (bitRev w (w / 8) (ext x)).map (back w)

/-- `sprout::bit_reverse_in` (bit/bit_reverse.hpp 74-87); a failing assertion is `none`.
The result of `bit_rev` is of type `unsigned_type`, hence non-negative when promoted. -/
def bitReverseIn (x : BitVec w) (length : Int) : Option (BitVec w) :=
  if 0 ≤ length ∧ length ≤ w then do
    let r ← bitRev w (w / 8) (ext x)
    let r ← shrP w (ext (back w r)) ((w : Int) - length)
    some (back w r)
  else none

/-- `sprout::rotl` (bit/rotl.hpp 20-27) -/
def rotl (x : BitVec w) (s : Int) : Option (BitVec w) := do
  let a ← shlP w (ext x) s
  let b ← shlr x ((w : Int) - s)
  some (back w (a ||| ext b))

/-- `sprout::rotr` (bit/rotr.hpp 20-27) -/
def rotr (x : BitVec w) (s : Int) : Option (BitVec w) := do
  let a ← shlr x s
  let b ← shlP w (ext x) ((w : Int) - s)
  some (back w (ext a ||| b))

/-- `sprout::setbit` (bit/setbit.hpp 18-25) -/
def setbit (x : BitVec w) (b : Int) : Option (BitVec w) := do
  let m ← shlP w 1 b
  some (back w (ext x ||| m))

/-- `sprout::rstbit` (bit/rstbit.hpp 18-25) -/
def rstbit (x : BitVec w) (b : Int) : Option (BitVec w) := do
  let m ← shlP w 1 b
  some (back w (ext x &&& ~~~ m))

/-- `sprout::flipbit` (bit/flipbit.hpp 18-25) -/
def flipbit (x : BitVec w) (b : Int) : Option (BitVec w) := do
  let m ← shlP w 1 b
  some (back w (ext x ^^^ m))

/-- `sprout::testbit` (bit/testbit.hpp 18-25) -/
def testbit (x : BitVec w) (b : Int) : Option Bool := do
  let m ← shlP w 1 b
  some (ext x &&& m != 0)

/-- `sprout::setbitsge` (bit/setbitsge.hpp 18-25) -/
def setbitsge (x : BitVec w) (b : Int) : Option (BitVec w) := do
  let m ← shlP w 1 b
  some (back w (ext x ||| ~~~ (m - 1)))

/-- `sprout::setbitsle` (bit/setbitsle.hpp 18-25) -/
def setbitsle (x : BitVec w) (b : Int) : Option (BitVec w) := do
  let m ← shlP w 1 (b + 1)
  some (back w (ext x ||| (m - 1)))

/-- `sprout::rstbitsge` (bit/rstbitsge.hpp 18-25) -/
def rstbitsge (x : BitVec w) (b : Int) : Option (BitVec w) := do
  let m ← shlP w 1 b
  some (back w (ext x &&& (m - 1)))

/-- `sprout::rstbitsle` (bit/rstbitsle.hpp 18-25) -/
def rstbitsle (x : BitVec w) (b : Int) : Option (BitVec w) := do
  let m ← shlP w 1 (b + 1)
  some (back w (ext x &&& ~~~ (m - 1)))

/-- `sprout::flipbitsge` (bit/flipbitsge.hpp 18-25) -/
def flipbitsge (x : BitVec w) (b : Int) : Option (BitVec w) := do
  let m ← shlP w 1 b
  some (back w (ext x ^^^ ~~~ (m - 1)))

/-- `sprout::flipbitsle` (bit/flipbitsle.hpp 18-25) -/
def flipbitsle (x : BitVec w) (b : Int) : Option (BitVec w) := do
  let m ← shlP w 1 (b + 1)
  some (back w (ext x ^^^ (m - 1)))

/-- `sprout::isols0b` (bit/isols0b.hpp 18-25) -/
def isols0b (x : BitVec w) : BitVec w := back w (~~~ ext x &&& (ext x + 1))

/-- `sprout::isols1b` (bit/isols1b.hpp 18-25) -/
def isols1b (x : BitVec w) : BitVec w := back w (ext x &&& - ext x)

/-- `sprout::rstls1b` (bit/rstls1b.hpp 18-25) -/
def rstls1b (x : BitVec w) : BitVec w := back w (ext x &&& (ext x - 1))

/-- `sprout::setls0b` (bit/setls0b.hpp 18-25) -/
def setls0b (x : BitVec w) : BitVec w := back w (ext x ||| (ext x + 1))

/-- `sprout::rstt1` (bit/rstt1.hpp 18-25) -/
def rstt1 (x : BitVec w) : BitVec w := back w (ext x &&& (ext x + 1))

/-- `sprout::sett0` (bit/sett0.hpp 18-25) -/
def sett0 (x : BitVec w) : BitVec w := back w (ext x ||| (ext x - 1))

/-- `sprout::maskt0` (bit/maskt0.hpp 18-25) -/
def maskt0 (x : BitVec w) : BitVec w := back w (~~~ ext x &&& (ext x - 1))

/-- `sprout::maskt1` (bit/maskt1.hpp 18-25) -/
def maskt1 (x : BitVec w) : BitVec w := back w (~~~ (~~~ ext x ||| (ext x + 1)))

/-- `sprout::maskt0ls1b` (bit/maskt0ls1b.hpp 18-25) -/
def maskt0ls1b (x : BitVec w) : BitVec w := back w ((ext x - 1) ^^^ ext x)

/-- `sprout::maskt1ls0b` (bit/maskt1ls0b.hpp 18-25) -/
def maskt1ls0b (x : BitVec w) : BitVec w := back w (ext x ^^^ (ext x + 1))

end Sprout
