import Verif.Spec.Numeral
import Mathlib.Data.Real.Basic

/-! # Decimal strings without an exponent (ISO C 7.22.1.3) -/

namespace Sprout.Spec

/-- white space, a sign, digits, and possibly a point with digits after it -/
structure DecStr where
  sp : List Int
  sg : List Int
  D1 : List Nat
  D2 : Option (List Nat)

namespace DecStr

/-- the digits after the point -/
def frac (d : DecStr) : List Nat := d.D2.getD []

/-- the point and the digits after it -/
def fracChars : Option (List Nat) → List Int
  | none => []
  | some D => 0x2E :: D.map digitChar

/-- the characters -/
def chars (d : DecStr) : List Int := d.sp ++ (d.sg ++ (d.D1.map digitChar ++ fracChars d.D2))

/-- the syntax, for a string which ends at the character `c` -/
structure Wf (d : DecStr) (c : Int) : Prop where
  space : ∀ x ∈ d.sp, (-2 ^ 31 ≤ x ∧ x < 2 ^ 32) ∧ Ctype.space x
  sign : d.sg = [] ∨ d.sg = [0x2B] ∨ d.sg = [0x2D]
  digit1 : ∀ x ∈ d.D1, x < 10
  digit2 : ∀ x ∈ d.frac, x < 10
  nonempty : d.D1 ++ d.frac ≠ []
  stop_char : -2 ^ 31 ≤ c ∧ c < 2 ^ 32
  stop_digit : ¬ Ctype.digit c
  stop_exp : c ≠ 0x65 ∧ c ≠ 0x45
  stop_point : d.D2 = none → c ≠ 0x2E

/-- all digits, as an integer -/
def mant (d : DecStr) : Nat := evalFrom 10 0 (d.D1 ++ d.frac)

/-- the sign -/
noncomputable def sgn (d : DecStr) : ℝ := if d.sg = [0x2D] then -1 else 1

/-- the number written -/
noncomputable def value (d : DecStr) : ℝ := d.sgn * (d.mant / 10 ^ d.frac.length)

end DecStr
end Sprout.Spec
