import Verif.Basic

/-!
# C++ integer types and their arithmetic

The value of an object of integer type is an `Int`. Usual LP64/LLP64 assumptions: `int` has 32 bits, two's complement.
-/

namespace Sprout

/-- an integer type: width and signedness -/
structure CInt where
  w : Nat
  sg : Bool
  deriving DecidableEq

namespace CInt

/-- `numeric_limits<T>::min()` -/
def min (T : CInt) : Int := if T.sg then -2 ^ (T.w - 1) else 0
/-- `numeric_limits<T>::max()` -/
def max (T : CInt) : Int := if T.sg then 2 ^ (T.w - 1) - 1 else 2 ^ T.w - 1

/-- the values of the type -/
def Has (T : CInt) (x : Int) : Prop := T.min ≤ x ∧ x ≤ T.max

instance (T : CInt) (x : Int) : Decidable (T.Has x) := by unfold Has; infer_instance

/-- conversion to `T` (to a signed type: modular, as all compilers and C++20 define it) -/
def conv (T : CInt) (x : Int) : Int := (x - T.min) % 2 ^ T.w + T.min

/-- result of an arithmetic expression with exact value `x` whose operands are of type `T` or (nonnegative) `int`:
types narrower than `int` are promoted to `int`; signed overflow is undefined; unsigned arithmetic is modular -/
def arith (T : CInt) (x : Int) : Option Int :=
  if T.w < 32 then (if -2 ^ 31 ≤ x ∧ x < 2 ^ 31 then some x else none)
  else if T.sg then (if T.Has x then some x else none)
  else some (x % 2 ^ T.w)

/-- `x / y` in the same setting; division by zero is undefined -/
def div (T : CInt) (x y : Int) : Option Int := if y = 0 then none else arith T (x.tdiv y)

/-- `x % y` -/
def rem (T : CInt) (x y : Int) : Option Int := if y = 0 then none else do
  let _ ← arith T (x.tdiv y)
  arith T (x.tmod y)

def int8 : CInt := ⟨8, true⟩
def int16 : CInt := ⟨16, true⟩
def int32 : CInt := ⟨32, true⟩
def int64 : CInt := ⟨64, true⟩
def uint8 : CInt := ⟨8, false⟩
def uint16 : CInt := ⟨16, false⟩
def uint32 : CInt := ⟨32, false⟩
def uint64 : CInt := ⟨64, false⟩

/-- the standard integer types -/
def Std (T : CInt) : Prop := T.w = 8 ∨ T.w = 16 ∨ T.w = 32 ∨ T.w = 64

end CInt
end Sprout
