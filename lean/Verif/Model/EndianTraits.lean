import Verif.Basic

/-!
# `big_endian_traits`, `little_endian_traits`, `endian_traits`

sprout/endian_traits.hpp. `T` is an integer type of `N` bytes, signed if `sg`; its values are bit vectors. Operands narrower than
`int` (32 bits) are promoted; `UCHAR_MAX` and a promoted `unsigned char` are of type `int`, so a shift of these by 32 bits or more
is undefined. A shift of a nonnegative value into the sign bit of `int` is taken as defined (C++14; undefined in C++11).
-/

namespace Sprout.EndianTraits

/-- width of the promoted type -/
def pw (N : Nat) : Nat := max (8 * N) 32

/-- an operand of type `T` after promotion -/
def prom (sg : Bool) {N : Nat} (t : BitVec (8 * N)) : BitVec (pw N) := if sg then t.signExtend _ else t.setWidth _

/-- `x << 8 * k` for `x` of type `int` -/
def shlInt (x : BitVec 32) (k : Nat) : Option (BitVec 32) := if 8 * k < 32 then some (x <<< (8 * k)) else none

/-- `x >> 8 * k` in the promoted type, which is signed if `T` is, or is narrower than `int` -/
def shr (sg : Bool) {N : Nat} (x : BitVec (pw N)) (k : Nat) : Option (BitVec (pw N)) :=
  if 8 * k < pw N then some (if sg || decide (N < 4) then x.sshiftRight (8 * k) else x >>> (8 * k)) else none

/-- `default_little_endian_traits::get_byte` (endian_traits.hpp 99-104) -/
def getLittle (sg : Bool) {N : Nat} (t : BitVec (8 * N)) (i : Nat) : Option (BitVec 8) := do
  let m ← shlInt 0xFF i
  let r ← shr sg (prom sg t &&& m.signExtend _) i
  some (r.setWidth 8)

/-- `default_little_endian_traits::set_byte` (endian_traits.hpp 105-109): `t &= ~(…)`, then `t |= (…)`, both with a conversion to `T` -/
def setLittle (sg : Bool) {N : Nat} (t : BitVec (8 * N)) (i : Nat) (v : BitVec 8) : Option (BitVec (8 * N)) := do
  let m ← shlInt 0xFF i
  let s ← shlInt (v.setWidth 32) i
  let t1 : BitVec (8 * N) := (prom sg t &&& (~~~m).signExtend _).setWidth _
  some ((prom sg t1 ||| s.signExtend _).setWidth _)

/-- `size() - 1 - i` in `size_t` -/
def revIx (N i : Nat) : Nat := (N - 1 + (2 ^ 64 - i)) % 2 ^ 64

/-- `default_big_endian_traits::get_byte` (endian_traits.hpp 53-59); `size_t` arithmetic in `CHAR_BIT * …` does not wrap for byte
numbers in range -/
def getBig (sg : Bool) {N : Nat} (t : BitVec (8 * N)) (i : Nat) : Option (BitVec 8) := getLittle sg t (revIx N i)

/-- `default_big_endian_traits::set_byte` (endian_traits.hpp 60-64) -/
def setBig (sg : Bool) {N : Nat} (t : BitVec (8 * N)) (i : Nat) (v : BitVec 8) : Option (BitVec (8 * N)) := setLittle sg t (revIx N i) v

/-- `get_byte` for types of one byte (endian_traits.hpp 32-35, 80-82) -/
def get1 (t : BitVec 8) (_ : Nat) : BitVec 8 := t
/-- `set_byte` for types of one byte (endian_traits.hpp 36-39, 83-86) -/
def set1 (_ : BitVec 8) (_ : Nat) (v : BitVec 8) : BitVec 8 := v

end Sprout.EndianTraits
