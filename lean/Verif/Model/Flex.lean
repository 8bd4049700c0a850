/-!
# Flexible conversions of tuples: `sprout/tuple/flex.hpp`

Elements are numbers or tuples. `none` is an ill-formed conversion. Simplifications: numbers have one type; a tuple of one element is not converted from
or to its element.
-/

namespace Sprout.Flex

/-- types of elements -/
inductive Ty
  | num
  | tup (l : List Ty)

/-- values of elements -/
inductive Val
  | num (n : Int)
  | tup (l : List Val)

mutual
/-- value-initialisation, `element_holder()` (tuple/tuple/tuple_decl.hpp 121, 144) -/
def dflt : Ty → Val
  | .num => .num 0
  | .tup l => .tup (dfltAll l)
/-- of all elements -/
def dfltAll : List Ty → List Val
  | [] => []
  | t :: l => dflt t :: dfltAll l
end

mutual
/-- implicit conversion; for tuples the numbers of elements must be equal, `is_fixedly_convert_constructible` (tuple_decl.hpp 240-245) -/
def conv : Val → Ty → Option Val
  | .num n, .num => some (.num n)
  | .tup vs, .tup ts => (convAll vs ts).map .tup
  | _, _ => none
/-- of all elements -/
def convAll : List Val → List Ty → Option (List Val)
  | [], [] => some []
  | v :: vs, t :: ts => do
    let a ← conv v t
    let l ← convAll vs ts
    some (a :: l)
  | _, _ => none
end

/-- the constructors with `flexibly_construct` (tuple_decl.hpp 111-152): elements that are missing are value-initialised, those left over ignored; `f`
converts the elements -/
def flexible (f : Val → Ty → Option Val) : List Val → List Ty → Option (List Val)
  | _, [] => some []
  | [], t :: ts => some (dflt t :: dfltAll ts)
  | v :: vs, t :: ts => do
    let a ← f v t
    let l ← flexible f vs ts
    some (a :: l)

/-- `flex(v)` converted to a type: `flex_tuple::operator tuple<UTypes...>` (flex.hpp 47-50) of tuples, the value itself (55-59) otherwise -/
def flex : Val → Ty → Option Val
  | .tup vs, .tup ts => (flexible conv vs ts).map .tup
  | v, t => conv v t

/-- `recursive_flex(v)` converted to a type: `recursive_flex_tuple::operator tuple<UTypes...>` (81-88, 95-98), which applies `flex` to the elements; the
value itself (103-107) otherwise -/
def recursiveFlex : Val → Ty → Option Val
  | .tup vs, .tup ts => (flexible flex vs ts).map .tup
  | v, t => conv v t

end Sprout.Flex
