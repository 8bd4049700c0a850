import Verif.Model.Ascii

/-!
# Comparison without regard to case

`sprout/ctype/functor.hpp`: `to_lower`, `to_upper`, `nocase_equal_to`, `nocase_not_equal_to`. The two characters have the same type.
-/

namespace Sprout.Nocase

/-- `to_lower` (functor.hpp 333-352) and `to_upper` (357-376) -/
def toLower (x : Int) : Int := Ascii.tolower x
def toUpper (x : Int) : Int := Ascii.toupper x

/-- `nocase_equal_to` (functor.hpp 417-438) -/
def nocaseEqualTo (x y : Int) : Bool := Ascii.tolower x == Ascii.tolower y

/-- `nocase_not_equal_to` (functor.hpp 443-464) -/
def nocaseNotEqualTo (x y : Int) : Bool := Ascii.tolower x != Ascii.tolower y

end Sprout.Nocase
