/-!
# Promotions of arithmetic types: `sprout/type_traits/arithmetic_promote.hpp`, `float_promote.hpp`, `sprout/math/detail/float_compute.hpp`

`none` is an ill-formed program. The types `char`, `wchar_t`, `char16_t` and `char32_t` are not modelled.
-/

namespace Sprout.Promote

/-- arithmetic types; ranks of integers: 0 for `signed char`, 1 for `short`, 2 for `int`, 3 for `long`, 4 for `long long`; of floating point types: 0 for
`float`, 1 for `double`, 2 for `long double` -/
inductive Ty
  | bool
  | int (rank : Nat) (uns : Bool)
  | flt (k : Nat)
  deriving DecidableEq

/-- a platform: the number of bits of the integers of a rank -/
structure Platform where
  width : Nat → Nat

/-- integral promotions of the language -/
def promote (P : Platform) : Ty → Ty
  | .bool => .int 2 false
  | .int r u => if r < 2 then (if u ∧ P.width r = P.width 2 then .int 2 true else .int 2 false) else .int r u
  | .flt k => .flt k

/-- the usual arithmetic conversions of the language for promoted types -/
def usualConv (P : Platform) : Ty → Ty → Ty
  | .flt k, .flt l => .flt (max k l)
  | .flt k, _ => .flt k
  | _, .flt l => .flt l
  | .int r false, .int s false => .int (max r s) false
  | .int r true, .int s true => .int (max r s) true
  | .int r true, .int s false => if s ≤ r then .int r true else if P.width r < P.width s then .int s false else .int s true
  | .int r false, .int s true => if r ≤ s then .int s true else if P.width s < P.width r then .int r false else .int r true
  | _, t => t

/-- `arithmetic_promote2` (arithmetic_promote.hpp 28-36): the type of a sum -/
def arith2 (P : Platform) (t u : Ty) : Ty := usualConv P (promote P t) (promote P u)

/-- `arithmetic_promote_impl` (38-50), `arithmetic_promote` (56-61) -/
def arith (P : Platform) : List Ty → Option Ty
  | [] => none
  | [t] => some t
  | t :: u :: l => arith P (arith2 P t u :: l)
  termination_by l => l.length

/-- `float_promote1` (float_promote.hpp 17-29) -/
def float1 : Ty → Ty
  | .flt k => .flt k
  | _ => .flt 1

/-- `float_promote2` (31-47) -/
def float2 (t u : Ty) : Ty :=
  if t = .flt 2 ∨ u = .flt 2 then .flt 2 else if t = .flt 0 ∧ u = .flt 0 then .flt 0 else .flt 1

/-- `float_promote_impl` (49-61), `float_promote` (67-72) -/
def float : List Ty → Option Ty
  | [] => none
  | [t] => some (float1 t)
  | t :: u :: l => float (float2 t u :: l)
  termination_by l => l.length

/-- `float_compute` (math/detail/float_compute.hpp 17-20) -/
def floatCompute (l : List Ty) : Option Ty := float (.flt 1 :: l)

end Sprout.Promote
