import Verif.Model.Merge

/-!
# Iterators over set operations and merges

`find_difference`, `find_intersection`, `find_symmetric_difference`, `next_*` and the iterators built on them. The two underlying
ranges lie in blocks `m1` and `m2`; underlying iterators are positions. `last1`, `last2`, `comp` do not change and are parameters.
-/

namespace Sprout.SetIter
variable {α : Type}

/-- the state `(it1, it2, found)` of the searches -/
abbrev Cur := Nat × Nat × Bool

/-- one step of `find_difference_impl_1` (sprout/algorithm/find_difference.hpp 46-52) -/
def diffStep (comp : α → α → Bool) (m1 m2 : List α) (last2 : Nat) (s : Cur) : Option Cur :=
  if s.2.1 = last2 then some (s.1, s.2.1, true)
  else do
    let x ← rd m1 s.1
    let y ← rd m2 s.2.1
    some (if comp x y then (s.1, s.2.1, true)
      else if comp y x then (s.1, s.2.1 + 1, false)
      else (s.1 + 1, s.2.1 + 1, false))

/-- `find_difference` (find_difference.hpp 22-110) -/
def findDifference (comp : α → α → Bool) (m1 m2 : List α) (first1 last1 first2 last2 : Nat) : Option (Nat × Nat) := do
  let c ← dbl (finIf fun s : Cur => s.2.2 || s.1 == last1) (diffStep comp m1 m2 last2) (first1, first2, false) 1
  some (if c.2.2 then (c.1, c.2.1) else (last1, last2))

/-- one step of `find_intersection_impl_1` (find_intersection.hpp 46-50) -/
def interStep (comp : α → α → Bool) (m1 m2 : List α) (s : Cur) : Option Cur := do
  let x ← rd m1 s.1
  let y ← rd m2 s.2.1
  some (if comp x y then (s.1 + 1, s.2.1, false)
    else if comp y x then (s.1, s.2.1 + 1, false)
    else (s.1, s.2.1, true))

/-- `find_intersection` (find_intersection.hpp 22-108) -/
def findIntersection (comp : α → α → Bool) (m1 m2 : List α) (first1 last1 first2 last2 : Nat) : Option (Nat × Nat) := do
  let c ← dbl (finIf fun s : Cur => s.2.2 || s.1 == last1 || s.2.1 == last2) (interStep comp m1 m2) (first1, first2, false) 1
  some (if c.2.2 then (c.1, c.2.1) else (last1, last2))

/-- one step of `find_symmetric_difference_impl_1` (find_symmetric_difference.hpp 39-41) -/
def symmStep (comp : α → α → Bool) (m1 m2 : List α) (s : Cur) : Option Cur := do
  let x ← rd m1 s.1
  let y ← rd m2 s.2.1
  some (if comp x y || comp y x then (s.1, s.2.1, true) else (s.1 + 1, s.2.1 + 1, false))

/-- `find_symmetric_difference` (find_symmetric_difference.hpp 22-98) -/
def findSymmetricDifference (comp : α → α → Bool) (m1 m2 : List α) (first1 last1 first2 last2 : Nat) : Option (Nat × Nat) := do
  let c ← dbl (finIf fun s : Cur => s.2.2 || s.1 == last1 || s.2.1 == last2) (symmStep comp m1 m2) (first1, first2, false) 1
  some (c.1, c.2.1)

/-- `next_difference` (next_difference.hpp 24-36) -/
def nextDifference (comp : α → α → Bool) (m1 m2 : List α) (first1 last1 first2 last2 : Nat) : Option (Nat × Nat) :=
  if first1 = last1 then some (last1, last2) else findDifference comp m1 m2 (first1 + 1) last1 first2 last2

/-- `next_intersection` (next_intersection.hpp 24-36) -/
def nextIntersection (comp : α → α → Bool) (m1 m2 : List α) (first1 last1 first2 last2 : Nat) : Option (Nat × Nat) :=
  if first1 = last1 ∨ first2 = last2 then some (last1, last2) else findIntersection comp m1 m2 (first1 + 1) last1 (first2 + 1) last2

/-- `next_symmetric_difference` (next_symmetric_difference.hpp 24-43) -/
def nextSymmetricDifference (comp : α → α → Bool) (m1 m2 : List α) (first1 last1 first2 last2 : Nat) : Option (Nat × Nat) :=
  if first1 ≠ last1 then
    if first2 ≠ last2 then do
      let x ← rd m1 first1
      let y ← rd m2 first2
      if comp x y then findSymmetricDifference comp m1 m2 (first1 + 1) last1 first2 last2
      else findSymmetricDifference comp m1 m2 first1 last1 (first2 + 1) last2
    else some (first1 + 1, first2)
  else if first2 ≠ last2 then some (first1, first2 + 1)
  else some (last1, last2)

/-- `next_union` (next_union.hpp 23-44) -/
def nextUnion (comp : α → α → Bool) (m1 m2 : List α) (first1 last1 first2 last2 : Nat) : Option (Nat × Nat) :=
  if first1 ≠ last1 then
    if first2 ≠ last2 then do
      let x ← rd m1 first1
      let y ← rd m2 first2
      some (if comp x y then (first1 + 1, first2)
        else if comp y x then (first1, first2 + 1)
        else (first1 + 1, first2 + 1))
    else some (first1 + 1, first2)
  else if first2 ≠ last2 then some (first1, first2 + 1)
  else some (last1, last2)

/-- `merge_iterator::operator++` (sprout/iterator/merge_iterator.hpp 123-144), without `in_left` -/
def nextMerge (comp : α → α → Bool) (m1 m2 : List α) (first1 last1 first2 last2 : Nat) : Option (Nat × Nat) :=
  if first1 ≠ last1 then
    if first2 ≠ last2 then do
      let x ← rd m1 first1
      let y ← rd m2 first2
      some (if comp y x then (first1, first2 + 1) else (first1 + 1, first2))
    else some (first1 + 1, first2)
  else if first2 ≠ last2 then some (first1, first2 + 1)
  else some (first1, first2)

/-- an iterator: current positions and `in_left` (always `true` for intersection and difference) -/
abbrev It := Nat × Nat × Bool

/-- `check_in_left` (merge_iterator.hpp 54-63, set_union_iterator.hpp 58-67, set_symmetric_difference_iterator.hpp 46-55);
`test x y` decides when neither range is exhausted -/
def checkInLeft (test : α → α → Bool) (m1 m2 : List α) (last1 last2 : Nat) (p : Nat × Nat) : Option Bool :=
  if p.1 ≠ last1 then
    if p.2 ≠ last2 then do
      let x ← rd m1 p.1
      let y ← rd m2 p.2
      some (test x y)
    else some true
  else some (!(p.2 != last2))

/-- the kinds of iterators -/
inductive Kind where
  | merge | union | inter | diff | symm

/-- the test in `check_in_left`; `set_intersection_iterator` and `set_difference_iterator` always dereference the first position
(set_intersection_iterator.hpp 110-115, set_difference_iterator.hpp 110-115) -/
def leftTest (comp : α → α → Bool) : Kind → Option (α → α → Bool)
  | .merge => some fun x y => !comp y x
  | .union => some fun x y => comp x y || !comp y x
  | .symm => some fun x y => comp x y
  | .inter => none
  | .diff => none

/-- positions together with `in_left` -/
def mk (k : Kind) (comp : α → α → Bool) (m1 m2 : List α) (last1 last2 : Nat) (p : Nat × Nat) : Option It :=
  match leftTest comp k with
  | none => some (p.1, p.2, true)
  | some t => do
    let b ← checkInLeft t m1 m2 last1 last2 p
    some (p.1, p.2, b)

/-- the constructors (merge_iterator.hpp 76-85, set_union_iterator.hpp 87-96, set_intersection_iterator.hpp 74-82,
set_difference_iterator.hpp 74-82, set_symmetric_difference_iterator.hpp 143-149) -/
def construct (k : Kind) (comp : α → α → Bool) (m1 m2 : List α) (first1 last1 first2 last2 : Nat) : Option It := do
  let p ← match k with
    | .merge => some (first1, first2)
    | .union => some (first1, first2)
    | .inter => findIntersection comp m1 m2 first1 last1 first2 last2
    | .diff => findDifference comp m1 m2 first1 last1 first2 last2
    | .symm => findSymmetricDifference comp m1 m2 first1 last1 first2 last2
  mk k comp m1 m2 last1 last2 p

/-- `operator++` and `next()` (merge_iterator.hpp 123-172, set_union_iterator.hpp 134-150, set_intersection_iterator.hpp 119-133,
set_difference_iterator.hpp 119-133, set_symmetric_difference_iterator.hpp 184-200) -/
def incr (k : Kind) (comp : α → α → Bool) (m1 m2 : List α) (last1 last2 : Nat) (it : It) : Option It := do
  let p ← match k with
    | .merge => nextMerge comp m1 m2 it.1 last1 it.2.1 last2
    | .union => nextUnion comp m1 m2 it.1 last1 it.2.1 last2
    | .inter => nextIntersection comp m1 m2 it.1 last1 it.2.1 last2
    | .diff => nextDifference comp m1 m2 it.1 last1 it.2.1 last2
    | .symm => nextSymmetricDifference comp m1 m2 it.1 last1 it.2.1 last2
  mk k comp m1 m2 last1 last2 p

/-- `operator*` (merge_iterator.hpp 117-119, set_union_iterator.hpp 128-130) -/
def deref (m1 m2 : List α) (it : It) : Option α := if it.2.2 then rd m1 it.1 else rd m2 it.2.1

/-- `operator==` (merge_iterator.hpp 193-199 and the others) -/
def eqIt (a b : It) : Bool := a.1 == b.1 && a.2.1 == b.2.1

end Sprout.SetIter

namespace Sprout
variable {α σ : Type}

/-- `for (; it != end; ++it) out.push_back(*it);` -/
def drain (deref : σ → Option α) (next : σ → Option σ) (atEnd : σ → Bool) (it : σ) : Option (List α) :=
  if atEnd it then some []
  else do
    let x ← deref it
    let it ← next it
    let r ← drain deref next atEnd it
    some (x :: r)
partial_fixpoint

end Sprout

namespace Sprout.SetIter
variable {α : Type}

/-- The elements a loop from the iterator at the beginning to the iterator at the end of both ranges sees; the end iterator is
constructed from `(last1, last1, last2, last2)` as in `range/adaptor/{merged,set_union,...}.hpp` and `make_*_iterator` -/
def iterate (k : Kind) (comp : α → α → Bool) (m1 m2 : List α) (first1 last1 first2 last2 : Nat) : Option (List α) := do
  let b ← construct k comp m1 m2 first1 last1 first2 last2
  let e ← construct k comp m1 m2 last1 last1 last2 last2
  drain (deref m1 m2) (incr k comp m1 m2 last1 last2) (fun it => eqIt it e) b

end Sprout.SetIter
