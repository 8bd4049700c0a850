import Verif.Model.Cstring
import Verif.Spec.StringFind

/-!
# Searching and comparing in `basic_string` and `basic_string_view`

sprout/string/detail/find.hpp, sprout/string/detail/compare.hpp and the functions of `char_traits` they use
(sprout/string/char_traits.hpp). `data` is position `d` of the block `m`, `s` position `s` of the block `ms`.
A character is represented by the number by which `Traits::lt` compares it (for `char`: its value as `unsigned char`).
`size_type` has 64 bits; sizes of strings are below `npos`, so nothing wraps around.
-/

namespace Sprout.Str
open Spec.Str (npos)

/-- `char_traits::compare(s1, s2, n)` (char_traits.hpp 95-101): `tristate_lexicographical_compare` with delimiters
`char_type()`, the function behind `strncmp` -/
def traitsCompare (m1 m2 : List Int) (s1 s2 n : Nat) : Option Int := Cstr.strncmp m1 m2 s1 s2 n

/-- `char_traits_helper::find(s, n, a)` (char_traits.hpp 235-242) -/
def traitsFind (m : List Int) (s n : Nat) (a : Int) : Option Nat := findIfRa m s (s + n) (fun x => x == a)

/-- `char_traits_helper::is_found(found, last)` (char_traits.hpp 243-245) -/
def isFound (found last : Nat) : Bool := found != last

/-- `find_impl_1` (find.hpp 17-30) -/
def findImpl1 (m ms : List Int) (d len s pos n : Nat) : Option Nat :=
  if pos ≤ len - n then do
    let x ← rd m (d + pos)
    let y ← rd ms s
    let found ← if x == y then (traitsCompare m ms (d + (pos + 1)) (s + 1) (n - 1)).map (· == 0) else some false
    if found then some pos else findImpl1 m ms d len s (pos + 1) n
  else some npos
partial_fixpoint

/-- `find_impl` (find.hpp 31-42) -/
def findImpl (m ms : List Int) (d len s pos n : Nat) : Option Nat :=
  if n = 0 then some (if pos ≤ len then pos else npos)
  else if n ≤ len then findImpl1 m ms d len s pos n
  else some npos

/-- `find_c_impl`, `find_c_impl_1` (find.hpp 43-66) -/
def findCImpl (m : List Int) (d len : Nat) (c : Int) (pos : Nat) : Option Nat :=
  if pos < len then do
    let p ← traitsFind m (d + pos) (len - pos) c
    some (if isFound p (d + len) then p - d else npos)
  else some npos

/-- `rfind_impl_1` (find.hpp 67-78) -/
def rfindImpl1 (m ms : List Int) (d s : Nat) : Nat → Nat → Option Nat
  | 0, n => do
    let r ← traitsCompare m ms d s n
    some (if r = 0 then 0 else npos)
  | pos + 1, n => do
    let r ← traitsCompare m ms (d + (pos + 1)) s n
    if r = 0 then some (pos + 1) else rfindImpl1 m ms d s pos n

/-- `rfind_impl` (find.hpp 79-91) -/
def rfindImpl (m ms : List Int) (d len s pos n : Nat) : Option Nat :=
  if n ≤ len then rfindImpl1 m ms d s (min (len - n) pos) n else some npos

/-- `rfind_c_impl_1` (find.hpp 92-104) -/
def rfindCImpl1 (m : List Int) (d : Nat) (c : Int) : Nat → Option Nat
  | 0 => some npos
  | len + 1 => do
    let x ← rd m (d + len)
    if x == c then some len else rfindCImpl1 m d c len

/-- `rfind_c_impl` (find.hpp 106-116) -/
def rfindCImpl (m : List Int) (d len : Nat) (c : Int) (pos : Nat) : Option Nat :=
  if len ≠ 0 then rfindCImpl1 m d c (if len - 1 > pos then pos + 1 else len) else some npos

/-- `find_first_of_impl` (find.hpp 117-132) -/
def findFirstOfImpl (m ms : List Int) (d len s pos n : Nat) : Option Nat :=
  if n ≠ 0 ∧ pos < len then do
    let x ← rd m (d + pos)
    let p ← traitsFind ms s n x
    if isFound p (s + n) then some pos else findFirstOfImpl m ms d len s (pos + 1) n
  else some npos
partial_fixpoint

/-- `find_last_of_impl_1`, `find_last_not_of_impl_1` (find.hpp 133-146, 187-200); `neg` is the `!` of the latter. The first
argument is the parameter `len`, a position here. -/
def findLastOfImpl1 (neg : Bool) (m ms : List Int) (d s n : Nat) : Nat → Option Nat
  | 0 => do
    let x ← rd m d
    let p ← traitsFind ms s n x
    some (if isFound p (s + n) != neg then 0 else npos)
  | len + 1 => do
    let x ← rd m (d + (len + 1))
    let p ← traitsFind ms s n x
    if isFound p (s + n) != neg then some (len + 1) else findLastOfImpl1 neg m ms d s n len

/-- `find_last_of_impl` (find.hpp 147-157) -/
def findLastOfImpl (m ms : List Int) (d len s pos n : Nat) : Option Nat :=
  if len ≠ 0 ∧ n ≠ 0 then findLastOfImpl1 false m ms d s n (if len - 1 > pos then pos else len - 1) else some npos

/-- `find_first_not_of_impl` (find.hpp 158-173) -/
def findFirstNotOfImpl (m ms : List Int) (d len s pos n : Nat) : Option Nat :=
  if pos < len then do
    let x ← rd m (d + pos)
    let p ← traitsFind ms s n x
    if !isFound p (s + n) then some pos else findFirstNotOfImpl m ms d len s (pos + 1) n
  else some npos
partial_fixpoint

/-- `find_first_not_of_c_impl` (find.hpp 174-186) -/
def findFirstNotOfCImpl (m : List Int) (d len : Nat) (c : Int) (pos : Nat) : Option Nat :=
  if pos < len then do
    let x ← rd m (d + pos)
    if !(x == c) then some pos else findFirstNotOfCImpl m d len c (pos + 1)
  else some npos
partial_fixpoint

/-- `find_last_not_of_impl` (find.hpp 201-211) -/
def findLastNotOfImpl (m ms : List Int) (d len s pos n : Nat) : Option Nat :=
  if len ≠ 0 then findLastOfImpl1 true m ms d s n (if len - 1 > pos then pos else len - 1) else some npos

/-- `find_last_not_of_c_impl_1` (find.hpp 212-223) -/
def findLastNotOfCImpl1 (m : List Int) (d : Nat) (c : Int) : Nat → Option Nat
  | 0 => do
    let x ← rd m d
    some (if !(x == c) then 0 else npos)
  | len + 1 => do
    let x ← rd m (d + (len + 1))
    if !(x == c) then some (len + 1) else findLastNotOfCImpl1 m d c len

/-- `find_last_not_of_c_impl` (find.hpp 224-234) -/
def findLastNotOfCImpl (m : List Int) (d len : Nat) (c : Int) (pos : Nat) : Option Nat :=
  if len ≠ 0 then findLastNotOfCImpl1 m d c (if len - 1 > pos then pos else len - 1) else some npos

/-- `compare_impl`, `compare_impl_1` (compare.hpp 16-39) -/
def compareImpl (m ms : List Int) (d pos1 n1 s n2 : Nat) : Option Int := do
  let compared ← traitsCompare m ms (d + pos1) s (min n1 n2)
  some (if compared ≠ 0 then compared else if n1 < n2 then -1 else if n2 < n1 then 1 else 0)

end Sprout.Str
