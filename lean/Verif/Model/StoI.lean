import Verif.Model.IntStr
import Verif.Spec.Numeral

/-!
# Integers from strings and string views

sprout/string/string_to_int.hpp, sprout/utility/string_view/string_to_int.hpp. A view is a position and a length in a block of memory. The
library functions `std::strtol` and the like, called with `idx`, are taken from the specification (`Spec.strtol`), with `long` of 64 bits; where
they stop is not modelled.
-/

namespace Sprout.StoI

open Sprout.IntStr

/-- `string_to_int<T>(str, base)` of a string (string/string_to_int.hpp 35-52), which reads from `str.begin()`, and what calls it: `stoi`, `stol`,
`stoul`, … (57-150), `from_string` (155-170, with base 0), without `idx` -/
def stringToInt (T : CInt) (s : Str) (base : Int) : Option Int := strToInt T s.elems base

/-- `string_to_int<T>(str, base)` of a view (utility/string_view/string_to_int.hpp 34-51): the length of the view does not occur -/
def viewToInt (T : CInt) (mem : List Int) (pos _len : Nat) (base : Int) : Option Int := strToInt T (mem.drop pos) base

/-- `string_to_int<T>(str, idx, base)` of a string for signed `T` (string/string_to_int.hpp 22-29, 39-44; cstdlib/str_to_int.hpp 105-131): the
result of `strtol`, converted -/
def stringToIntIdx (T : CInt) (s : Str) (base : Nat) : Int := T.conv (Spec.strtol CInt.int64.min CInt.int64.max base s.elems)

end Sprout.StoI
