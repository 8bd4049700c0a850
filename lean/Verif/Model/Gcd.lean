import Verif.Basic

/-!
# gcd, lcm

`sprout/math/gcd.hpp`, `sprout/math/lcm.hpp`, `sprout/cstdlib/abs.hpp`.

Signed arithmetic takes place in an integer type: a predicate `fits` telling which values are representable. Signed
overflow, division by zero and a quotient which is not representable are undefined behaviour (`none`). Unsigned built-in
types are `BitVec w`.
-/

namespace Sprout

/-- a signed integer type: which values can be represented. Everything up to the absolute value of a representable
number whose absolute value is representable, too, must be representable: true of two's complement types of any width and
of unbounded integers. -/
structure IntTy where
  fits : Int → Bool
  convex : ∀ x y : Int, x.natAbs ≤ y.natAbs → fits y.natAbs = true → fits x = true

/-- unbounded integers -/
def IntTy.big : IntTy := ⟨fun _ => true, fun _ _ _ _ => rfl⟩

/-- a two's complement type with `w` bits -/
def IntTy.signed (w : Nat) : IntTy :=
  ⟨fun z => decide (-(2 ^ (w - 1) : Nat) ≤ z ∧ z < (2 ^ (w - 1) : Nat)), by
    intro x y h hy
    simp only [decide_eq_true_eq] at *
    omega⟩

variable (T : IntTy)

/-- a computed value: overflow is undefined behaviour -/
def IntTy.chk (z : Int) : Option Int := if T.fits z then some z else none
/-- `a / b` (truncating) -/
def IntTy.div (a b : Int) : Option Int := if b = 0 then none else T.chk (a.tdiv b)
/-- `a % b`; undefined if the quotient is -/
def IntTy.mod (a b : Int) : Option Int := if b = 0 then none else do
  let _ ← T.chk (a.tdiv b)
  some (a.tmod b)

/-- `gcd_euclidean` (gcd.hpp 23-30) -/
def gcdEuclidean (a b : Int) : Option Int :=
  if a = 0 then some b
  else do
    let r ← T.mod b a
    if r = 0 then some a
    else do
      let r1 ← T.mod b a
      let s ← T.mod a r1
      let r2 ← T.mod b a
      gcdEuclidean s r2
partial_fixpoint

/-- `gcd_integer` (gcd.hpp 32-43): the version for signed types with `numeric_limits` that are not built in -/
def gcdInteger (a b : Int) : Option Int := do
  let result ← gcdEuclidean T a b
  if result < 0 then T.chk (-result) else some result

/-- `lcm_euclidean_impl`, `lcm_euclidean` (lcm.hpp 19-32) -/
def lcmEuclidean (a b : Int) : Option Int := do
  let temp ← gcdEuclidean T a b
  if temp ≠ 0 then do
    let q ← T.div a temp
    T.chk (q * b)
  else some 0

/-- `lcm_integer`, what `lcm` evaluates for signed types (lcm.hpp 34-45, 54-60) -/
def lcmInteger (a b : Int) : Option Int := do
  let result ← lcmEuclidean T a b
  if result < 0 then T.chk (-result) else some result

/-! ### unsigned types -/

variable {w : Nat}

/-- `r[i]` of a two-element array -/
def pick (r : BitVec w × BitVec w) (which : Bool) : BitVec w := if which then r.2 else r.1
/-- the array with element `which` replaced -/
def upd (r : BitVec w × BitVec w) (which : Bool) (x : BitVec w) : BitVec w × BitVec w :=
  if which then (r.1, x) else (x, r.2)

/-- the halving steps of `gcd_binary_2_1` (gcd.hpp 107-114): until `r[which]` is odd -/
def gcdHalve (r : BitVec w × BitVec w) (which : Bool) : Option (BitVec w × BitVec w) :=
  if pick r which &&& 1 = 0 then gcdHalve (upd r which (pick r which >>> 1)) which
  else some r
partial_fixpoint

/-- `gcd_binary_2_1`, `gcd_binary_2_2` (gcd.hpp 95-130), one round of halving, swapping and subtracting per unfolding.
For `unsigned char` and `unsigned short` the computation takes place in `int` with the same values. -/
def gcdBinary2 (shifts : Nat) (r : BitVec w × BitVec w) (which : Bool) : Option (BitVec w) := do
  let r ← gcdHalve r which
  let which := if pick r (!which) > pick r which then !which else which
  let r := upd r which (pick r which - pick r (!which))
  if pick r which ≠ 0 then gcdBinary2 shifts r which
  else if shifts < w then some (pick r (!which) <<< shifts) else none
partial_fixpoint

/-- `gcd_binary_1` (gcd.hpp 132-140) -/
def gcdBinary1 (u v : BitVec w) (shifts : Nat) : Option (BitVec w) :=
  if u &&& 1 = 0 ∧ v &&& 1 = 0 then gcdBinary1 (u >>> 1) (v >>> 1) (shifts + 1)
  else gcdBinary2 shifts (u, v) (u &&& 1 != 0)
partial_fixpoint

/-- `gcd_binary`, `gcd` of the unsigned types (gcd.hpp 141-147, 176-192) -/
def gcdUnsigned (u v : BitVec w) : Option (BitVec w) :=
  if u ≠ 0 ∧ v ≠ 0 then gcdBinary1 u v 0 else some (u + v)

/-- `abs` (abs.hpp 22-55) -/
def absSigned (a : BitVec w) : Option (BitVec w) :=
  if a.toInt < 0 then (if (IntTy.signed w).fits (-a.toInt) then some (-a) else none) else some a

/-- `gcd` of the signed built-in types (gcd.hpp 194-213) -/
def gcdSigned (a b : BitVec w) : Option (BitVec w) := do
  let u ← absSigned a
  let v ← absSigned b
  gcdUnsigned u v

/-- `gcd_euclidean` at an unsigned type (gcd.hpp 23-30) -/
def gcdEuclideanU (a b : BitVec w) : Option (BitVec w) :=
  if a = 0 then some b
  else if b % a = 0 then some a
  else gcdEuclideanU (a % (b % a)) (b % a)
partial_fixpoint

/-- `lcm` of unsigned types (lcm.hpp 19-32, 47-53); for the promoted types the product is reduced on return -/
def lcmUnsigned (a b : BitVec w) : Option (BitVec w) := do
  let temp ← gcdEuclideanU a b
  if temp ≠ 0 then some (a / temp * b) else some 0

end Sprout
