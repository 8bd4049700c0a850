import Verif.Model.Exn
import Verif.Model.Gcd

/-!
# rational

`sprout/rational/rational.hpp`, `arithmetic.hpp`, `comparison.hpp`, `values.hpp`, over unbounded integers. Division by
zero is undefined behaviour (`none`); `gcd` is the model of `sprout::gcd` for such a type.

Compound assignment takes `rhs` by reference, so the members of `rhs` are read at each use, and `rhs` may be the object
itself: the objects are elements of a block of memory and the operands are positions in it.
-/

namespace Sprout

/-- the members `num_`, `den_` (rational.hpp 37-38) -/
structure Rational where
  num : Int
  den : Int
  deriving DecidableEq, Repr

namespace Rational

/-- `a / b` -/
def dv (a b : Int) : Option Int := IntTy.big.div a b
/-- `a % b` -/
def md (a b : Int) : Option Int := IntTy.big.mod a b
/-- `sprout::gcd` -/
def gcd (a b : Int) : Option Int := gcdInteger IntTy.big a b

/-- `rational()` (rational.hpp 40-42, 88-90) -/
def zero : Rational := ⟨0, 1⟩
/-- `rational(n)` (rational.hpp 44-46, 92-94) -/
def ofInt (n : Int) : Rational := ⟨n, 1⟩

/-- `normalize_g_1` (rational.hpp 71-73) -/
def normalizeG1 (den g : Int) : Option Int := do
  let t ← dv den g
  some (if t < 0 then -g else g)

/-- `normalize_g` (rational.hpp 74-79) -/
def normalizeG (num den : Int) : Option (Ret Int) :=
  if den = 0 then some (.throw .badRational)
  else if num = 0 then some (.ret den)
  else do
    let g ← gcd num den
    let g ← normalizeG1 den g
    some (.ret g)

/-- `rational(n, d)` (rational.hpp 50-52, 95-97) -/
def mk2 (n d : Int) : Option (Ret Rational) := do
  match ← normalizeG n d with
  | .throw e => some (.throw e)
  | .ret g => do
    let a ← dv n g
    let b ← dv d g
    some (.ret ⟨a, b⟩)

/-- unary `operator-` (arithmetic.hpp 26-32) -/
def neg (r : Rational) : Rational := ⟨-r.num, r.den⟩
/-- `abs` (values.hpp 19-27) -/
def abs (x : Rational) : Rational := if x.num ≥ 0 then x else ⟨-x.num, x.den⟩

/-- `operator+` (arithmetic.hpp 40-96): `rational_add_impl`, `_1`, `_2`, `_3` -/
def add (lhs rhs : Rational) : Option Rational := do
  let g ← gcd lhs.den rhs.den
  let den ← dv lhs.den g
  let t ← dv rhs.den g
  let num := lhs.num * t + rhs.num * den
  let g ← gcd num g
  let a ← dv num g
  let b ← dv rhs.den g
  some ⟨a, den * b⟩

/-- `operator-` (arithmetic.hpp 108-164) -/
def sub (lhs rhs : Rational) : Option Rational := do
  let g ← gcd lhs.den rhs.den
  let den ← dv lhs.den g
  let t ← dv rhs.den g
  let num := lhs.num * t - rhs.num * den
  let g ← gcd num g
  let a ← dv num g
  let b ← dv rhs.den g
  some ⟨a, den * b⟩

/-- `operator*` (arithmetic.hpp 176-198) -/
def mul (lhs rhs : Rational) : Option Rational := do
  let gcd1 ← gcd lhs.num rhs.den
  let gcd2 ← gcd rhs.num lhs.den
  let a ← dv lhs.num gcd1
  let b ← dv rhs.num gcd2
  let c ← dv lhs.den gcd2
  let d ← dv rhs.den gcd1
  some ⟨a * b, c * d⟩

/-- `operator/` (arithmetic.hpp 210-242) -/
def div (lhs rhs : Rational) : Option (Ret Rational) :=
  if rhs.num = 0 then some (.throw .badRational)
  else if lhs.num = 0 then some (.ret lhs)
  else do
    let gcd1 ← gcd lhs.num rhs.num
    let gcd2 ← gcd rhs.den lhs.den
    let a ← dv lhs.num gcd1
    let b ← dv rhs.den gcd2
    let c ← dv lhs.den gcd2
    let d ← dv rhs.num gcd1
    let num := a * b
    let den := c * d
    some (.ret (if den < 0 then ⟨-num, -den⟩ else ⟨num, den⟩))

/-- `operator++` (rational.hpp 175-178) -/
def inc (x : Rational) : Rational := ⟨x.num + x.den, x.den⟩
/-- `operator--` (rational.hpp 179-182) -/
def dec (x : Rational) : Rational := ⟨x.num - x.den, x.den⟩

/-! compound assignment; `m` is the memory, `i` is `this`, `j` is `rhs` -/

/-- assign `num_` of the object at `i` -/
def setNum (m : List Rational) (i : Nat) (v : Int) : Option (List Rational) := do
  let x ← m[i]?
  some (m.set i ⟨v, x.den⟩)
/-- assign `den_` of the object at `i` -/
def setDen (m : List Rational) (i : Nat) (v : Int) : Option (List Rational) := do
  let x ← m[i]?
  some (m.set i ⟨x.num, v⟩)

/-- `operator+=` (rational.hpp 120-128), line by line -/
def addAssign (m : List Rational) (i j : Nat) : Option (List Rational) := do
  let g ← gcd (← m[i]?).den (← m[j]?).den
  let m ← setDen m i (← dv (← m[i]?).den g)
  let m ← setNum m i ((← m[i]?).num * (← dv (← m[j]?).den g) + (← m[j]?).num * (← m[i]?).den)
  let g ← gcd (← m[i]?).num g
  let m ← setNum m i (← dv (← m[i]?).num g)
  setDen m i ((← m[i]?).den * (← dv (← m[j]?).den g))

/-- `operator-=` (rational.hpp 129-137) -/
def subAssign (m : List Rational) (i j : Nat) : Option (List Rational) := do
  let g ← gcd (← m[i]?).den (← m[j]?).den
  let m ← setDen m i (← dv (← m[i]?).den g)
  let m ← setNum m i ((← m[i]?).num * (← dv (← m[j]?).den g) - (← m[j]?).num * (← m[i]?).den)
  let g ← gcd (← m[i]?).num g
  let m ← setNum m i (← dv (← m[i]?).num g)
  setDen m i ((← m[i]?).den * (← dv (← m[j]?).den g))

/-- `operator*=` (rational.hpp 138-144) -/
def mulAssign (m : List Rational) (i j : Nat) : Option (List Rational) := do
  let gcd1 ← gcd (← m[i]?).num (← m[j]?).den
  let gcd2 ← gcd (← m[j]?).num (← m[i]?).den
  let m ← setNum m i ((← dv (← m[i]?).num gcd1) * (← dv (← m[j]?).num gcd2))
  setDen m i ((← dv (← m[i]?).den gcd2) * (← dv (← m[j]?).den gcd1))

/-- the end of `operator/=` (rational.hpp 156-160) -/
def divAssignSign (m : List Rational) (i : Nat) : Option (Ret (List Rational)) := do
  if (← m[i]?).den < 0 then do
    let m ← setNum m i (-(← m[i]?).num)
    let m ← setDen m i (-(← m[i]?).den)
    some (.ret m)
  else some (.ret m)

/-- the computation in `operator/=` (rational.hpp 152-160) -/
def divAssignTail (m : List Rational) (i j : Nat) : Option (Ret (List Rational)) := do
  let gcd1 ← gcd (← m[i]?).num (← m[j]?).num
  let gcd2 ← gcd (← m[j]?).den (← m[i]?).den
  let m ← setNum m i ((← dv (← m[i]?).num gcd1) * (← dv (← m[j]?).den gcd2))
  let m ← setDen m i ((← dv (← m[i]?).den gcd2) * (← dv (← m[j]?).num gcd1))
  divAssignSign m i

/-- `operator/=` (rational.hpp 145-161) -/
def divAssign (m : List Rational) (i j : Nat) : Option (Ret (List Rational)) := do
  if (← m[j]?).num = 0 then some (.throw .badRational)
  else if (← m[i]?).num = 0 then some (.ret m)
  else divAssignTail m i j

/-! comparison -/

/-- `operator==` (comparison.hpp 19-23) -/
def eq (lhs rhs : Rational) : Bool := lhs.num == rhs.num && lhs.den == rhs.den
/-- `operator==` with an integer (comparison.hpp 24-33) -/
def eqInt (lhs : Rational) (rhs : Int) : Bool := lhs.den == 1 && lhs.num == rhs

/-- `rational_less_impl_2` (comparison.hpp 57-77); the unused parameters `lhs`, `rhs` are left out, and `reverse`, which is
only 0 or 1, is a `Bool` -/
def lessImpl2 (d1 q1 r1 d2 q2 r2 : Int) (reverse : Bool) : Option Bool :=
  if q1 ≠ q2 then some (if reverse then decide (q1 > q2) else decide (q1 < q2))
  else if r1 = 0 ∨ r2 = 0 then
    if r1 = r2 then some false else some (decide (r1 ≠ 0) != !reverse)
  else do
    let a ← dv d1 r1
    let b ← md d1 r1
    let c ← dv d2 r2
    let d ← md d2 r2
    lessImpl2 r1 a b r2 c d (!reverse)
partial_fixpoint

/-- `rational_less_impl_1` (comparison.hpp 78-97) -/
def lessImpl1 (d1 q1 r1 d2 q2 r2 : Int) : Option Bool :=
  if r2 < 0 then lessImpl1 d1 q1 r1 d2 (q2 - 1) (r2 + d2) else lessImpl2 d1 q1 r1 d2 q2 r2 false
partial_fixpoint

/-- `rational_less_impl` (comparison.hpp 98-115) -/
def lessImpl (rhs : Rational) (d1 q1 r1 : Int) : Option Bool :=
  if r1 < 0 then lessImpl rhs d1 (q1 - 1) (r1 + d1)
  else do
    let q2 ← dv rhs.num rhs.den
    let r2 ← md rhs.num rhs.den
    lessImpl1 d1 q1 r1 rhs.den q2 r2
partial_fixpoint

/-- `operator<` (comparison.hpp 132-139) -/
def less (lhs rhs : Rational) : Option Bool := do
  let q ← dv lhs.num lhs.den
  let r ← md lhs.num lhs.den
  lessImpl rhs lhs.den q r

/-- `rational_less_impl` for an integer right operand (comparison.hpp 117-130); the recursive call passes
`r + lhs.denominator(), q - 1` for the parameters `q, r` -/
def lessIntImpl (lhs : Rational) (rhs : Int) (q r : Int) : Option Bool :=
  if r < 0 then lessIntImpl lhs rhs (r + lhs.den) (q - 1) else some (decide (q < rhs))
partial_fixpoint

/-- `operator<(rational, int)` (comparison.hpp 140-147) -/
def lessRI (lhs : Rational) (rhs : Int) : Option Bool := do
  let q ← dv lhs.num lhs.den
  let r ← md lhs.num lhs.den
  lessIntImpl lhs rhs q r

/-- `operator<(int, rational)` (comparison.hpp 148-152): `lhs != rhs && !(rhs < lhs)` -/
def lessIR (lhs : Int) (rhs : Rational) : Option Bool :=
  if eqInt rhs lhs then some false else do
    let t ← lessRI rhs lhs
    some (!t)

/-- `operator>` (comparison.hpp 154-158) -/
def greater (lhs rhs : Rational) : Option Bool := less rhs lhs
/-- `operator<=` (comparison.hpp 170-174) -/
def lessEq (lhs rhs : Rational) : Option Bool := do let t ← less rhs lhs; some (!t)
/-- `operator>=` (comparison.hpp 186-190) -/
def greaterEq (lhs rhs : Rational) : Option Bool := do let t ← less lhs rhs; some (!t)

/-- `operator>(rational, int)` (comparison.hpp 159-163) -/
def greaterRI (lhs : Rational) (rhs : Int) : Option Bool := lessIR rhs lhs
/-- `operator>(int, rational)` (comparison.hpp 164-168) -/
def greaterIR (lhs : Int) (rhs : Rational) : Option Bool := lessRI rhs lhs
/-- `operator<=(rational, int)` (comparison.hpp 175-179) -/
def lessEqRI (lhs : Rational) (rhs : Int) : Option Bool := do let t ← lessIR rhs lhs; some (!t)
/-- `operator<=(int, rational)` (comparison.hpp 180-184) -/
def lessEqIR (lhs : Int) (rhs : Rational) : Option Bool := do let t ← lessRI rhs lhs; some (!t)
/-- `operator>=(rational, int)` (comparison.hpp 191-195) -/
def greaterEqRI (lhs : Rational) (rhs : Int) : Option Bool := do let t ← lessRI lhs rhs; some (!t)
/-- `operator>=(int, rational)` (comparison.hpp 196-200) -/
def greaterEqIR (lhs : Int) (rhs : Rational) : Option Bool := do let t ← lessIR lhs rhs; some (!t)

end Rational
end Sprout
