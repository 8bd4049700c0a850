import Verif.Model.Exn
import Verif.Model.MathTables
import Mathlib.Data.Real.Basic
import Mathlib.Algebra.Order.Floor.Ring
import Mathlib.Data.Real.Archimedean

/-!
# The gamma function (`sprout/math/tgamma.hpp`), without the builtin functions

Simplifications: numbers are real and arithmetic is exact. A result that is infinite or NaN is `none`, and so is a division by zero and a
recursion without end; an exception is `Ret.throw`. `lim` is `factorial_limit<T>()` for the type `T` of computation
(`MathTables.FloatTy.limit`).
-/

namespace Sprout.Gamma

/-- polynomials as the code writes them, `(c₀ * t + c₁) * t + ...` -/
noncomputable def horner (cs : List ℚ) (t : ℝ) : ℝ :=
  match cs with
  | [] => 0
  | c :: cs => cs.foldl (fun (r : ℝ) (c : ℚ) => r * t + (c : ℝ)) (c : ℝ)

/-- the coefficients of `tgamma_impl_y` (`sprout/math/tgamma.hpp`, 45-56) -/
def yCoef : List ℚ := [
  -1.99542863674e-7, 1.337767384067e-6, -2.591225267689e-6, -1.7545539395205e-5, 1.45596568617526e-4, -3.60837876648255e-4,
  -8.04329819255744e-4, 0.008023273027855346, -0.017645244547851414, -0.024552490005641278, 0.19109110138763841,
  -0.233093736421782878, -0.422784335098466784, 0.99999999999999999]

/-- `tgamma_impl_y` (tgamma.hpp 44-56) -/
noncomputable def implY (w : ℝ) : ℝ := horner yCoef w

/-- `a / b` -/
noncomputable def div (a b : ℝ) : Option ℝ := if b = 0 then none else some (a / b)

/-- the recursion by halves of `tgamma_impl_t_pos` (57-65), `tgamma_impl_t_neg` (66-74), `tgamma_impl_t_pos_rec` (75-83) and
`tgamma_impl_t_neg_rec` (84-92), which differ in the value `f` for one number. The difference `last - n` is that of `std::size_t`, here
that of natural numbers; it is not called with `last < n`. -/
noncomputable def halves (f : ℕ → Option ℝ) (n last : ℕ) : Option ℝ :=
  if last - n = 1 then f n
  else do
    let a ← halves f n (n + (last - n) / 2)
    let b ← halves f (n + (last - n) / 2) last
    pure (a * b)
partial_fixpoint

/-- `tgamma_impl_t_pos` (57-65) -/
noncomputable def tPos (x : ℝ) (n last : ℕ) : Option ℝ := halves (fun n => some (x - n)) n last
/-- `tgamma_impl_t_neg` (66-74) -/
noncomputable def tNeg (x : ℝ) (n last : ℕ) : Option ℝ := halves (fun n => some (x + n)) n last
/-- `tgamma_impl_t_pos_rec` (75-83) -/
noncomputable def tPosRec (x : ℝ) (n last : ℕ) : Option ℝ := halves (fun n => div 1 (x - n)) n last
/-- `tgamma_impl_t_neg_rec` (84-92) -/
noncomputable def tNegRec (x : ℝ) (n last : ℕ) : Option ℝ := halves (fun n => div 1 (x + n)) n last

/-- `tgamma_impl_2_pos_rec` (93-99): infinite for `t == 0` -/
noncomputable def impl2PosRec (x y t : ℝ) : Option ℝ := do
  if t = 0 then none
  else
    let a ← div (x - 1) y
    div a t

/-- `tgamma_impl_1` (100-112) -/
noncomputable def impl1 (lim : ℕ) (x : ℝ) (n : ℤ) : Option ℝ :=
  if n = 1 then div (x - 1) (implY (x - (n + 2)))
  else if n = 0 then div 1 (implY (x - (n + 2)))
  else if n = lim then do
    let t ← tPosRec x 2 (n + 1).toNat
    impl2PosRec x (implY (x - (n + 2))) t
  else if n = -lim then do
    let a ← div 1 (implY (x - (n + 2)))
    let t ← tNegRec x 0 (-n).toNat
    pure (a * t)
  else if 1 < n then do
    let a ← div (x - 1) (implY (x - (n + 2)))
    let t ← tPos x 2 (n + 1).toNat
    pure (a * t)
  else do
    let a ← div 1 (implY (x - (n + 2)))
    let t ← tNeg x 0 (-n).toNat
    div a t

/-- `static_cast<int>` of a number: towards zero -/
noncomputable def toInt (x : ℝ) : ℤ := if x < 0 then ⌈x⌉ else ⌊x⌋

/-- the range of `int` -/
def intMin : ℤ := -2 ^ 31
/-- the range of `int` -/
def intMax : ℤ := 2 ^ 31 - 1

/-- `iround` (`sprout/math/iround.hpp`, 78-86, 56-67), without `SPROUT_NOERROR_LARGE_FLOAT_ROUNDING` -/
noncomputable def iround (x : ℝ) : Ret ℤ :=
  if x = 0 then .ret 0
  else if (intMax : ℝ) < x ∨ x < (intMin : ℝ) then .throw .runtimeError
  else if x < 0 then .ret (if (toInt x : ℝ) - x < 1 / 2 then toInt x else toInt x - 1)
  else .ret (if x - (toInt x : ℝ) < 1 / 2 then toInt x else toInt x + 1)

/-- `clamp` (`sprout/algorithm/clamp.hpp`, 22-27) with `<` on integers -/
def clampInt (v low high : ℤ) : ℤ := if v < low then low else if high < v then high else v

/-- `tgamma_impl` (113-124) -/
noncomputable def impl (lim : ℕ) (x : ℝ) : Option (Ret ℝ) :=
  match iround (x - 2) with
  | .throw e => some (.throw e)
  | .ret n => (impl1 lim x (clampInt n (-lim) lim)).map .ret

open Classical in
/-- `tgamma` (134-151) of a finite number -/
noncomputable def tgamma (lim : ℕ) (x : ℝ) : Option (Ret ℝ) :=
  if x = 0 then none
  else if x < 0 ∧ ∃ k : ℤ, x = k then none
  else impl lim x

end Sprout.Gamma
