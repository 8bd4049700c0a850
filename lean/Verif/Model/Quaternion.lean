import Verif.Model.Complex
import Mathlib.Analysis.SpecialFunctions.Trigonometric.Basic

/-!
# Model of `sprout/math/quaternion`

Numbers are exact reals. There are two versions of the class: the general template (`fl = false`) and the specialisations for `float`,
`double`, `long double` (`fl = true`), generated by macros.

Not modelled because it cannot be instantiated: `complex * quaternion`, `quaternion * complex` (arithmetic_operators.hpp 157-172, they call
`R_component_1` of the complex number), all three `/` with `div_qq_impl` (line 227 calls `div_qq_impl_3` with one of three arguments),
`pow` with negative exponent (it uses `/`), `abs` (abs.hpp 40 has a conditional expression of types `quaternion<T>` and `T`). The
elementary functions (exp.hpp etc.) are commented out.
-/

namespace Sprout

/-- quaternion.hpp 81-98 -/
structure Quat where
  a : ℝ
  b : ℝ
  c : ℝ
  d : ℝ

namespace Quat

/-- constructor with four components, quaternion.hpp 100-107 and 367-374 (the specialisations: `elems_{{requested_a, requested_a, …}}`) -/
def make (fl : Bool) (a b c d : ℝ) : Quat := if fl then ⟨a, a, c, d⟩ else ⟨a, b, c, d⟩

/-- constructor with two complex numbers, 108-113 and 375-380 -/
def makeC (z0 z1 : Cplx) : Quat := ⟨z0.re, z0.im, z1.re, z1.im⟩

/-- `C_component_1`, `C_component_2`, 42-47 -/
def c1 (q : Quat) : Cplx := ⟨q.a, q.b⟩
def c2 (q : Quat) : Cplx := ⟨q.c, q.d⟩

/-- `unreal`, 27-29 -/
def unreal (fl : Bool) (q : Quat) : Quat := make fl 0 q.b q.c q.d

/-! arithmetic_operators.hpp -/

noncomputable def addTQ (fl : Bool) (l : ℝ) (r : Quat) : Quat := make fl (l + r.a) r.b r.c r.d -- 20-28
noncomputable def addQT (fl : Bool) (l : Quat) (r : ℝ) : Quat := make fl (l.a + r) l.b l.c l.d -- 30-38
noncomputable def addCQ (fl : Bool) (l : Cplx) (r : Quat) : Quat := make fl (l.re + r.a) (l.im + r.b) r.c r.d -- 40-48
noncomputable def addQC (fl : Bool) (l : Quat) (r : Cplx) : Quat := make fl (l.a + r.re) (l.b + r.im) l.c l.d -- 50-58
noncomputable def add (fl : Bool) (l r : Quat) : Quat := make fl (l.a + r.a) (l.b + r.b) (l.c + r.c) (l.d + r.d) -- 60-68
noncomputable def subTQ (fl : Bool) (l : ℝ) (r : Quat) : Quat := make fl (l - r.a) r.b r.c r.d -- 73-81
noncomputable def subQT (fl : Bool) (l : Quat) (r : ℝ) : Quat := make fl (l.a - r) l.b l.c l.d -- 83-91
noncomputable def subCQ (fl : Bool) (l : Cplx) (r : Quat) : Quat := make fl (l.re - r.a) (l.im - r.b) r.c r.d -- 93-101
noncomputable def subQC (fl : Bool) (l : Quat) (r : Cplx) : Quat := make fl (l.a - r.re) (l.b - r.im) l.c l.d -- 103-111
noncomputable def sub (fl : Bool) (l r : Quat) : Quat := make fl (l.a - r.a) (l.b - r.b) (l.c - r.c) (l.d - r.d) -- 113-121
noncomputable def mulTQ (fl : Bool) (l : ℝ) (r : Quat) : Quat := make fl (l * r.a) (l * r.b) (l * r.c) (l * r.d) -- 126-134
noncomputable def mulQT (fl : Bool) (l : Quat) (r : ℝ) : Quat := make fl (l.a * r) (l.b * r) (l.c * r) (l.d * r) -- 136-144
/-- 175-192 -/
noncomputable def mul (fl : Bool) (l r : Quat) : Quat :=
  make fl (l.a * r.a - l.b * r.b - l.c * r.c - l.d * r.d) (l.a * r.b + l.b * r.a + l.c * r.d - l.d * r.c)
    (l.a * r.c - l.b * r.d + l.c * r.a + l.d * r.b) (l.a * r.d + l.b * r.c - l.c * r.b + l.d * r.a)
noncomputable def divTQ (fl : Bool) (l : ℝ) (r : Quat) : Quat := make fl (l / r.a) (l / r.b) (l / r.c) (l / r.d) -- 197-205
noncomputable def divQT (fl : Bool) (l : Quat) (r : ℝ) : Quat := make fl (l.a / r) (l.b / r) (l.c / r) (l.d / r) -- 207-215
noncomputable def neg (fl : Bool) (q : Quat) : Quat := make fl (-q.a) (-q.b) (-q.c) (-q.d) -- 295-298
def eqTQ (l : ℝ) (r : Quat) : Prop := r.a = l ∧ r.b = 0 ∧ r.c = 0 ∧ r.d = 0 -- 305-312
def eqCQ (l : Cplx) (r : Quat) : Prop := r.a = l.re ∧ r.b = l.im ∧ r.c = 0 ∧ r.d = 0 -- 323-330
def eq (l r : Quat) : Prop := r.a = l.a ∧ r.b = l.b ∧ r.c = l.c ∧ r.d = l.d -- 341-348

/-- conj.hpp 20-28 -/
noncomputable def conj (fl : Bool) (q : Quat) : Quat := make fl q.a (-q.b) (-q.c) (-q.d)
/-- norm.hpp 23-26 -/
noncomputable def norm (fl : Bool) (q : Quat) : ℝ := (mul fl q (conj fl q)).a
/-- sup.hpp 22-32, detail/abs_max.hpp 30-33: the absolute value of the first element of largest absolute value -/
noncomputable def absMax : List ℝ → ℝ
  | [] => 0
  | x :: r => |r.foldl (fun m y => if |m| < |y| then y else m) x|
noncomputable def sup (q : Quat) : ℝ := absMax [q.a, q.b, q.c, q.d]
/-- l1.hpp 22-32, detail/sum.hpp 35-38 -/
noncomputable def l1 (q : Quat) : ℝ := [q.a, q.b, q.c, q.d].foldl (fun s x => |s| + |x|) 0

/-- pow.hpp 20-38 for `n ≥ 0` -/
noncomputable def pow (fl : Bool) (q : Quat) (n : Nat) : Quat :=
  if h : 1 < n then
    let m := n / 2
    let r := pow fl q m
    if n ≠ m * 2 then mul fl (mul fl r r) q else mul fl r r
  else if n = 1 then q
  else make fl 1 0 0 0
termination_by n
decreasing_by omega

/-! Creation functions -/

/-- semipolar.hpp 22-30 -/
noncomputable def semipolar (fl : Bool) (rho alpha t1 t2 : ℝ) : Quat :=
  mulTQ fl rho (make fl (Real.cos alpha * Real.cos t1) (Real.cos alpha * Real.sin t1) (Real.sin alpha * Real.cos t2) (Real.sin alpha * Real.sin t2))
/-- multipolar.hpp 22-30 -/
noncomputable def multipolar (fl : Bool) (r1 t1 r2 t2 : ℝ) : Quat :=
  make fl (r1 * Real.cos t1) (r1 * Real.sin t1) (r2 * Real.cos t2) (r2 * Real.sin t2)
/-- spherical.hpp 23-40 -/
noncomputable def spherical (fl : Bool) (rho theta phi1 phi2 : ℝ) : Quat :=
  let p1 := Real.cos phi1
  let p2 := Real.cos phi2
  mulTQ fl rho (make fl (Real.cos theta * (p2 * p1)) (Real.sin theta * (p2 * p1)) (Real.sin phi1 * p2) (Real.sin phi2))

/-! Members that modify the object -/

/-- an argument `T const&`: a value, or a reference to component `i` of the object -/
inductive Arg where
  | val (x : ℝ)
  | compA
  | compB
  | compC
  | compD

def Arg.get : Arg → Quat → ℝ
  | val x, _ => x
  | compA, q => q.a
  | compB, q => q.b
  | compC, q => q.c
  | compD, q => q.d

/-- `operator*=(T const&)` of the general template, 173-183 -/
noncomputable def mulAssignT (q : Quat) (x : Arg) : Quat := ⟨q.a * x.get q, q.b * x.get q, q.c * x.get q, q.d * x.get q⟩
/-- of the specialisations, 428-435 -/
noncomputable def mulAssignTF (q : Quat) (x : Arg) : Quat :=
  let q := { q with a := q.a * x.get q }
  let q := { q with b := q.b * x.get q }
  let q := { q with c := q.c * x.get q }
  { q with d := q.d * x.get q }
/-- `operator+=`, `operator-=`, 125-172, 382-426 -/
noncomputable def addAssignT (q : Quat) (x : ℝ) : Quat := { q with a := q.a + x }
noncomputable def addAssignC (q : Quat) (z : Cplx) : Quat := { q with a := q.a + z.re, b := q.b + z.im }
noncomputable def addAssign (q r : Quat) : Quat := ⟨q.a + r.a, q.b + r.b, q.c + r.c, q.d + r.d⟩
noncomputable def subAssignT (q : Quat) (x : ℝ) : Quat := { q with a := q.a - x }
noncomputable def subAssignC (q : Quat) (z : Cplx) : Quat := { q with a := q.a - z.re, b := q.b - z.im }
noncomputable def subAssign (q r : Quat) : Quat := ⟨q.a - r.a, q.b - r.b, q.c - r.c, q.d - r.d⟩
/-- `operator*=(complex)`, 184-196, 437-450 -/
noncomputable def mulAssignC (q : Quat) (z : Cplx) : Quat :=
  ⟨q.a * z.re - q.b * z.im, q.a * z.im + q.b * z.re, q.c * z.re + q.d * z.im, -q.c * z.im + q.d * z.re⟩
/-- `operator*=(quaternion)`, 197-212, 452-468 -/
noncomputable def mulAssign (q r : Quat) : Quat :=
  ⟨q.a * r.a - q.b * r.b - q.c * r.c - q.d * r.d, q.a * r.b + q.b * r.a + q.c * r.d - q.d * r.c,
    q.a * r.c - q.b * r.d + q.c * r.a + q.d * r.b, q.a * r.d + q.b * r.c - q.c * r.b + q.d * r.a⟩
/-- `operator/=(T const&)` of a value, 213-223, 470-477 -/
noncomputable def divAssignT (q : Quat) (x : ℝ) : Quat := ⟨q.a / x, q.b / x, q.c / x, q.d / x⟩
/-- `operator/=(complex)` of the general template, 224-237 -/
noncomputable def divAssignC (q : Quat) (z : Cplx) : Quat :=
  let n := z.re * z.re + z.im * z.im
  ⟨(q.a * z.re + q.b * z.im) / n, (-q.a * z.im + q.b * z.re) / n, (q.c * z.re - q.d * z.im) / n, (q.c * z.im + q.d * z.re) / n⟩
/-- of the specialisations, 479-500 -/
noncomputable def divAssignCF (q : Quat) (z : Cplx) : Quat :=
  let mixam := 1 / absMax [z.re, z.im]
  let t0 := z.re * mixam
  let t1 := z.im * mixam
  let f := mixam / ((0 + t0 * t0) + t1 * t1)
  ⟨(q.a * t0 + q.b * t1) * f, (-q.a * t1 + q.b * t0) * f, (q.c * t0 - q.d * t1) * f, (q.c * t1 + q.d * t0) * f⟩
/-- the numerators of a quotient of quaternions -/
noncomputable def numer (q : Quat) (t0 t1 t2 t3 : ℝ) : Quat :=
  ⟨q.a * t0 + q.b * t1 + q.c * t2 + q.d * t3, -q.a * t1 + q.b * t0 - q.c * t3 + q.d * t2,
    -q.a * t2 + q.b * t3 + q.c * t0 - q.d * t1, -q.a * t3 - q.b * t2 + q.c * t1 + q.d * t0⟩
/-- `operator/=(quaternion)` of the general template, 238-254 -/
noncomputable def divAssign (q r : Quat) : Quat :=
  let n := r.a * r.a + r.b * r.b + r.c * r.c + r.d * r.d
  let t := numer q r.a r.b r.c r.d
  ⟨t.a / n, t.b / n, t.c / n, t.d / n⟩
/-- of the specialisations, 502-526 -/
noncomputable def divAssignF (q r : Quat) : Quat :=
  let mixam := 1 / absMax [r.a, r.b, r.c, r.d]
  let t0 := r.a * mixam
  let t1 := r.b * mixam
  let t2 := r.c * mixam
  let t3 := r.d * mixam
  let t := numer q t0 t1 t2 t3
  let f := mixam / ((((0 + t0 * t0) + t1 * t1) + t2 * t2) + t3 * t3)
  ⟨t.a * f, t.b * f, t.c * f, t.d * f⟩

end Quat
end Sprout
