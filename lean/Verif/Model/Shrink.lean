import Verif.Model.StringClass

/-!
# Conversions of strings to other capacities: `sprout/string/shrink.hpp`

A `basic_string<T, N>` is a `BStr` with `N + 1` elements. `none` is undefined behaviour or an ill-formed program.
-/

namespace Sprout.Shrink
open Str (BStr)

/-- `string_construct_access<T, N>::raw_construct(n, args...)` (string.hpp 1203-1207) with as many arguments as `N`: the constructors in 278-284 and
194-205 -/
def rawConstruct (n : Nat) (args : List Int) : BStr := ⟨args.mapIdx (fun i a => if i < n then a else 0) ++ [0], n⟩

/-- the constructor of `basic_string<T, N>` from `basic_string<T, N2>`, `N2 < N` (string.hpp 356-362, 138-149) -/
def widen (x : BStr) (N N2 : Nat) : Option BStr := do
  let l ← (List.range N2).mapM fun i => if i < x.len then x.elems[i]? else some 0
  some ⟨l ++ List.replicate (N + 1 - N2) 0, x.len⟩

/-- `shrink_string::implicit_conversion_impl` (shrink.hpp 30-39) for `k` indexes -/
def implicitConversion (x : BStr) (N len k : Nat) : Option BStr := do
  let l ← (List.range k).mapM fun i => if i < N then x.elems[i]? else some 0
  some (rawConstruct len l)

/-- `shrink_string::operator basic_string<T, N2>` (51-58); the result has the capacity `min N N2` and is converted to the capacity `N2` -/
def toCapacity (x : BStr) (N N2 : Nat) : Option BStr := do
  let k := if N < N2 then N else N2
  let r ← implicitConversion x N (min N2 x.len) k
  if k < N2 then widen r N2 k else some r

/-- `shrink<To>(s)` (69-73): for the same capacity there is the conversion to the string itself (48-50), which is no template -/
def shrink (x : BStr) (N To : Nat) : Option BStr := if To = N then some x else toCapacity x N To

/-- `to_string(arr)` (string.hpp 1252-1256, 376-382) of an array of `N` characters: up to the first null or `N - 1` characters -/
def toString (arr : List Int) : BStr :=
  let n := ((arr.take (arr.length - 1)).takeWhile (· ≠ 0)).length
  ⟨(arr.take (arr.length - 1)).mapIdx (fun i a => if i < n then a else 0) ++ [0], n⟩

/-- `shrink<To>(arr)` (80-84) -/
def shrinkArr (arr : List Int) (To : Nat) : Option BStr := shrink (toString arr) (arr.length - 1) To

/-- `return e;` in a function with the result `shrink_string<T, N>` for an expression `e` of type `shrink_string<T, M>`: there is no conversion between
different capacities, since the one to `basic_string<T, N>` (51-58) and the constructor (45-47) would be two user-defined conversions -/
def returnAs (N M : Nat) (x : BStr) : Option BStr := if M = N then some x else none

/-- `shrink(arr)` (75-79): the expression has the capacity `N - 1`, the result `N` -/
def shrinkArrHolder (arr : List Int) : Option BStr := returnAs arr.length (arr.length - 1) (toString arr)

end Sprout.Shrink
