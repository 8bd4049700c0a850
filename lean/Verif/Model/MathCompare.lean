import Verif.Model.CInt
import Verif.Model.MathRound

/-!
# Comparisons (`sprout/math/equal_to.hpp`, `not_equal_to.hpp`, `less.hpp`, `greater.hpp`, `less_equal.hpp`,
`greater_equal.hpp`, `compare.hpp`)
-/

namespace Sprout.MathCompare

open Classical

/-! ### Integers -/

/-- integral promotion -/
def promote (T : CInt) : CInt := if T.w < 32 then CInt.int32 else T

/-- the type of `T() + U()` (`arithmetic_promote`, `sprout/type_traits/arithmetic_promote.hpp`, 28-36): the usual
arithmetic conversions. An unsigned type prevails over a signed type which is not wider -/
def usual (T U : CInt) : CInt :=
  let a := promote T
  let b := promote U
  if a.sg = b.sg then (if a.w < b.w then b else a)
  else if a.sg then (if b.w < a.w then a else b)
  else (if a.w < b.w then b else a)

/-- `std::make_unsigned` -/
def makeUnsigned (T : CInt) : CInt := ⟨T.w, false⟩

/-- a built-in comparison, after the usual conversions -/
def builtin (r : Int → Int → Bool) (T U : CInt) (x y : Int) : Bool := r ((usual T U).conv x) ((usual T U).conv y)

/-- a comparison of types of which one is unsigned, after conversion to the unsigned common type -/
def unsigned (r : Int → Int → Bool) (T U : CInt) (x y : Int) : Bool :=
  r ((makeUnsigned (usual T U)).conv x) ((makeUnsigned (usual T U)).conv y)

/-- `equal_to` (`sprout/math/equal_to.hpp`, 56-58) -/
def iEqualTo (T U : CInt) (x y : Int) : Bool := builtin (fun a b => decide (a = b)) T U x y

/-- `not_equal_to` (`sprout/math/not_equal_to.hpp`, 26-28) -/
def iNotEqualTo (T U : CInt) (x y : Int) : Bool := !iEqualTo T U x y

/-- `less` (`sprout/math/less.hpp`, 41-43, 52-57, 66-71) -/
def iLess (T U : CInt) (x y : Int) : Bool :=
  if T.sg = U.sg then builtin (fun a b => decide (a < b)) T U x y
  else if T.sg then (if x < 0 then true else unsigned (fun a b => decide (a < b)) T U x y)
  else (if y < 0 then false else unsigned (fun a b => decide (a < b)) T U x y)

/-- `greater` (`sprout/math/greater.hpp`, 41-43, 52-57, 66-71) -/
def iGreater (T U : CInt) (x y : Int) : Bool :=
  if T.sg = U.sg then builtin (fun a b => decide (a > b)) T U x y
  else if T.sg then (if x < 0 then false else unsigned (fun a b => decide (a > b)) T U x y)
  else (if y < 0 then true else unsigned (fun a b => decide (a > b)) T U x y)

/-- `less_equal` (`sprout/math/less_equal.hpp`, 41-43, 52-57, 66-71) -/
def iLessEqual (T U : CInt) (x y : Int) : Bool :=
  if T.sg = U.sg then builtin (fun a b => decide (a ≤ b)) T U x y
  else if T.sg then (if x < 0 then true else unsigned (fun a b => decide (a ≤ b)) T U x y)
  else (if y < 0 then false else unsigned (fun a b => decide (a ≤ b)) T U x y)

/-- `greater_equal` (`sprout/math/greater_equal.hpp`, 41-43, 52-57, 66-71) -/
def iGreaterEqual (T U : CInt) (x y : Int) : Bool :=
  if T.sg = U.sg then builtin (fun a b => decide (a ≥ b)) T U x y
  else if T.sg then (if x < 0 then false else unsigned (fun a b => decide (a ≥ b)) T U x y)
  else (if y < 0 then true else unsigned (fun a b => decide (a ≥ b)) T U x y)

/-- `compare` (`sprout/math/compare.hpp`, 27-32) -/
def iCompare (T U : CInt) (x y : Int) : Int := if iEqualTo T U x y then 0 else if iLess T U x y then -1 else 1

/-! ### Floating types

Both arguments are of the common type, to which they are converted (`equal_to.hpp`, 45-46; the built-in comparisons
convert them likewise); `equal_to` itself is `MathRound.equalTo`. -/

open MathRound

/-- `not_equal_to` (`sprout/math/not_equal_to.hpp`, 26-28) -/
noncomputable def fNotEqualTo (F : Fmt) (x y : FV) : Bool := !equalTo F x y

/-- `less` (`sprout/math/less.hpp`, 29-31) -/
noncomputable def fLess (F : Fmt) (x y : FV) : Bool := fNotEqualTo F x y && decide (x.lt y)

/-- `greater` (`sprout/math/greater.hpp`, 29-31) -/
noncomputable def fGreater (F : Fmt) (x y : FV) : Bool := fNotEqualTo F x y && decide (y.lt x)

/-- `less_equal` (`sprout/math/less_equal.hpp`, 29-31) -/
noncomputable def fLessEqual (F : Fmt) (x y : FV) : Bool := equalTo F x y || decide (x.lt y)

/-- `greater_equal` (`sprout/math/greater_equal.hpp`, 29-31) -/
noncomputable def fGreaterEqual (F : Fmt) (x y : FV) : Bool := equalTo F x y || decide (y.lt x)

/-- `compare` (`sprout/math/compare.hpp`, 27-32) -/
noncomputable def fCompare (F : Fmt) (x y : FV) : Int := if equalTo F x y then 0 else if fLess F x y then -1 else 1

end Sprout.MathCompare
