import Verif.Model.CInt
import Verif.Model.Exn

/-!
# Division and absolute value of the C library

`sprout/cstdlib/div.hpp`, `sprout/cstdlib/abs.hpp`, `sprout/cinttypes/div.hpp`, `sprout/cinttypes/abs.hpp`.
-/

namespace Sprout
namespace Div

/-- `div_t`, `ldiv_t`, `lldiv_t`, `imaxdiv_t` -/
structure DivT where
  quot : Int
  rem : Int
  deriving DecidableEq

/-- aggregate initialisation `{a, b}` of the structure; `quotFirst` tells the order of the members in the C library -/
def DivT.agg (quotFirst : Bool) (a b : Int) : DivT := if quotFirst then ⟨a, b⟩ else ⟨b, a⟩

/-- `div_impl` (cstdlib/div.hpp 62-88), `div_impl2` (cinttypes/div.hpp 60-86): one overload for each order of the members -/
def divImpl (T : CInt) (quotFirst : Bool) (numer denom : Int) : Option DivT :=
  if quotFirst then do
    let q ← T.div numer denom
    let r ← T.rem numer denom
    some (DivT.agg quotFirst q r)
  else do
    let r ← T.rem numer denom
    let q ← T.div numer denom
    some (DivT.agg quotFirst r q)

/-- `div`, `ldiv`, `lldiv`, `imaxdiv` (cstdlib/div.hpp 91-115; cinttypes/div.hpp 89-101) -/
def div (T : CInt) (quotFirst : Bool) (numer denom : Int) : Option DivT := divImpl T quotFirst numer denom

/-- `div_at` (cstdlib/div.hpp 344-359); also `range_at`, and with 0 and 1 `range_front` and `range_back` (441-464) -/
def divAt (d : DivT) (i : Nat) : Ret Int :=
  if i = 0 then .ret d.quot else if i = 1 then .ret d.rem else .throw .outOfRange

/-- `tuple_get<I>` (cstdlib/div.hpp 178-239, 289-339) -/
def tupleGet (i : Nat) (d : DivT) : Option Int :=
  if i = 0 then some d.quot else if i = 1 then some d.rem else none

/-- `range_begin` to `range_end` (cstdlib/div.hpp 411-430): the index iterator visits `div_at` of 0 and 1 -/
def elems (d : DivT) : List (Ret Int) := (List.range 2).map (divAt d)

/-- `container_construct_traits<div_t>::make` and `remake` with two arguments (cstdlib/div.hpp 505-514) -/
def make (T : CInt) (quotFirst : Bool) (a b : Int) : Option DivT := divImpl T quotFirst a b

/-- `abs(int)`, `labs`, `llabs`, `imaxabs` and the template for the other signed types (cstdlib/abs.hpp 22-55; cinttypes/abs.hpp 15-18);
the result of the promoted negation is converted back -/
def abs (T : CInt) (j : Int) : Option Int :=
  if T.sg then
    if j < 0 then do
      let r ← T.arith (-j)
      some (T.conv r)
    else some j
  else some j

end Div
end Sprout
