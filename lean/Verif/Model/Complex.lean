import Mathlib.Analysis.Complex.Basic

/-!
# Model of `sprout/complex/complex.hpp` and `sprout/complex/arithmetic_operators.hpp`

Numbers are exact reals. Division by a norm that is zero (IEEE infinities and NaN) is outside this model, theorems on division exclude it.
-/

namespace Sprout

/-- `sprout::complex<T>`: `elems_` (complex.hpp 30-61) -/
structure Cplx where
  re : ℝ
  im : ℝ

namespace Cplx

/-- detail::complex_norm, complex.hpp 20-24 -/
noncomputable def cnorm (x : Cplx) : ℝ := x.re * x.re + x.im * x.im

/-! arithmetic_operators.hpp 16-133 -/

noncomputable def add (l r : Cplx) : Cplx := ⟨l.re + r.re, l.im + r.im⟩ -- 16-20
noncomputable def addCT (l : Cplx) (r : ℝ) : Cplx := ⟨l.re + r, l.im⟩ -- 21-25
noncomputable def addTC (l : ℝ) (r : Cplx) : Cplx := ⟨l + r.re, r.im⟩ -- 26-30
noncomputable def sub (l r : Cplx) : Cplx := ⟨l.re - r.re, l.im - r.im⟩ -- 31-35
noncomputable def subCT (l : Cplx) (r : ℝ) : Cplx := ⟨l.re - r, l.im⟩ -- 36-40
noncomputable def subTC (l : ℝ) (r : Cplx) : Cplx := ⟨l - r.re, -r.im⟩ -- 41-45
noncomputable def mul (l r : Cplx) : Cplx := ⟨l.re * r.re - l.im * r.im, l.re * r.im + l.im * r.re⟩ -- 46-53
noncomputable def mulCT (l : Cplx) (r : ℝ) : Cplx := ⟨l.re * r, l.im * r⟩ -- 54-58
noncomputable def mulTC (l : ℝ) (r : Cplx) : Cplx := ⟨l * r.re, l * r.im⟩ -- 59-63
/-- 65-72, 79-83 -/
noncomputable def div (l r : Cplx) : Cplx :=
  let n := cnorm r
  ⟨(l.re * r.re + l.im * r.im) / n, (l.im * r.re - l.re * r.im) / n⟩
noncomputable def divCT (l : Cplx) (r : ℝ) : Cplx := ⟨l.re / r, l.im / r⟩ -- 84-88
/-- 73-77, 89-93 -/
noncomputable def divTC (l : ℝ) (r : Cplx) : Cplx :=
  let n := cnorm r
  ⟨l * r.re / n, -l * r.im / n⟩
noncomputable def pos (x : Cplx) : Cplx := x -- 94-98
noncomputable def neg (x : Cplx) : Cplx := ⟨-x.re, -x.im⟩ -- 99-103
def eq (l r : Cplx) : Prop := l.re = r.re ∧ l.im = r.im -- 104-108
def eqCT (l : Cplx) (r : ℝ) : Prop := l.re = r ∧ l.im = 0 -- 109-113
def eqTC (l : ℝ) (r : Cplx) : Prop := l = r.re ∧ 0 = r.im -- 114-118
def ne (l r : Cplx) : Prop := ¬ eq l r -- 119-123
def neCT (l : Cplx) (r : ℝ) : Prop := ¬ eqCT l r -- 124-128
def neTC (l : ℝ) (r : Cplx) : Prop := ¬ eqTC l r -- 129-133

/-- conj.hpp 21-25 -/
noncomputable def conj (x : Cplx) : Cplx := ⟨x.re, -x.im⟩
/-- perp.hpp 21-25 -/
noncomputable def perp (x : Cplx) : Cplx := ⟨-x.im, x.re⟩

/-! Members that modify the object, complex.hpp 80-140. A `T const&` parameter may refer to a part of the object. -/

/-- an argument `T const&` -/
inductive Arg where
  | val (x : ℝ)
  | reOf
  | imOf

/-- its value now -/
def Arg.get : Arg → Cplx → ℝ
  | val x, _ => x
  | reOf, z => z.re
  | imOf, z => z.im

/-- 80-84 -/
noncomputable def assignT (z : Cplx) (a : Arg) : Cplx :=
  let z := { z with re := a.get z }
  { z with im := 0 }
/-- 85-88 -/
noncomputable def addAssignT (z : Cplx) (a : Arg) : Cplx := { z with re := z.re + a.get z }
/-- 89-92 -/
noncomputable def subAssignT (z : Cplx) (a : Arg) : Cplx := { z with re := z.re - a.get z }
/-- 93-97 -/
noncomputable def mulAssignT (z : Cplx) (a : Arg) : Cplx :=
  let z := { z with re := z.re * a.get z }
  { z with im := z.im * a.get z }
/-- 98-102 -/
noncomputable def divAssignT (z : Cplx) (a : Arg) : Cplx :=
  let z := { z with re := z.re / a.get z }
  { z with im := z.im / a.get z }

/-- an argument `complex<X> const&`: another object or `*this` -/
inductive CArg where
  | val (x : Cplx)
  | self

def CArg.get : CArg → Cplx → Cplx
  | val x, _ => x
  | self, z => z

/-- 103-107 -/
noncomputable def assign (z : Cplx) (a : CArg) : Cplx :=
  let z := { z with re := (a.get z).re }
  { z with im := (a.get z).im }
/-- 114-119 -/
noncomputable def addAssign (z : Cplx) (a : CArg) : Cplx :=
  let z := { z with re := z.re + (a.get z).re }
  { z with im := z.im + (a.get z).im }
/-- 120-125 -/
noncomputable def subAssign (z : Cplx) (a : CArg) : Cplx :=
  let z := { z with re := z.re - (a.get z).re }
  { z with im := z.im - (a.get z).im }
/-- 126-132 -/
noncomputable def mulAssign (z : Cplx) (a : CArg) : Cplx :=
  let r := a.get z
  assign z (.val ⟨z.re * r.re - z.im * r.im, z.re * r.im + z.im * r.re⟩)
/-- 133-140 -/
noncomputable def divAssign (z : Cplx) (a : CArg) : Cplx :=
  let r := a.get z
  let n := cnorm r
  assign z (.val ⟨(z.re * r.re + z.im * r.im) / n, (z.im * r.re - z.re * r.im) / n⟩)

/-! Iterators, complex.hpp 142-171: positions in `elems_` -/

def begin' : Nat := 0 -- 142-147
def end' : Nat := 2 -- 148-153
def cbegin : Nat := 0 -- 166-168
/-- 169-171: it returns `elems_.cbegin()` -/
def cend : Nat := 0
/-- the elements between two positions -/
def between (z : Cplx) (i j : Nat) : List ℝ := ([z.re, z.im].take j).drop i

end Cplx
end Sprout
