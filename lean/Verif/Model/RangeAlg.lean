import Verif.Model.Find
import Verif.Model.Search
import Verif.Model.BinarySearch
import Verif.Model.IsPermutation
import Verif.Model.MinMax

/-!
# Algorithms on ranges (`sprout/range/algorithm/*.hpp`, `sprout/range/range_return.hpp`)

Every function calls the algorithm on iterators with `begin(range)` and `end(range)`. A range is a
block of memory with the positions of its two iterators; the iterators are random access iterators.
`none` = undefined behaviour.
-/

namespace Sprout.RangeAlg
variable {α β : Type}

/-- an object that has `begin` and `end` (container/functions.hpp): a segment of a block -/
structure Rng (α : Type) where
  mem : List α
  b : Nat
  e : Nat

/-- range_return.hpp 22-26: `range_return_value` -/
inductive RetV where
  | found
  | foundEnd
  | beginFound

/-- the two possible types of the result: an iterator, or a `range_container` of two iterators
(range_container.hpp; type_traits/lvalue_range.hpp 19-22) -/
inductive Packed where
  | it (i : Nat)
  | rng (i j : Nat)
  deriving DecidableEq

/-- range_return.hpp 34-74: the three specialisations of `range_return<Range, RetV>::pack` -/
def pack (v : RetV) (found : Nat) (r : Rng α) : Packed :=
  match v with
  | .found => .it found
  | .foundEnd => .rng found r.e
  | .beginFound => .rng r.b found

/-- find.hpp 23-47 -/
def find [BEq α] (v : RetV) (r : Rng α) (value : α) : Option Packed := do
  return pack v (← findValRa r.mem r.b r.e value) r

/-- find_if.hpp 23-47 -/
def findIf (v : RetV) (r : Rng α) (pred : α → Bool) : Option Packed := do
  return pack v (← findIfRa r.mem r.b r.e pred) r

/-- find_if_not.hpp 23-47 -/
def findIfNot (v : RetV) (r : Rng α) (pred : α → Bool) : Option Packed := do
  return pack v (← findIfNotRa r.mem r.b r.e pred) r

/-- adjacent_find.hpp 23-71 -/
def adjacentFind (v : RetV) (r : Rng α) (pred : α → α → Bool) : Option Packed := do
  return pack v (← adjacentFindRa r.mem r.b r.e pred) r

/-- find_first_of.hpp 23-79 -/
def findFirstOf (v : RetV) (r1 : Rng α) (r2 : Rng β) (pred : α → β → Bool) : Option Packed := do
  return pack v (← findFirstOfRa r1.mem r2.mem pred r1.b r1.e r2.b r2.e) r1

/-- search.hpp 23-79 -/
def search (v : RetV) (r1 : Rng α) (r2 : Rng β) (pred : α → β → Bool) : Option Packed := do
  return pack v (← searchRa r1.mem r2.mem pred r1.b r1.e r2.b r2.e) r1

/-- find_end.hpp 23-79 -/
def findEnd (v : RetV) (r1 : Rng α) (r2 : Rng β) (pred : α → β → Bool) : Option Packed := do
  return pack v (← findEndRa r1.mem r2.mem pred r1.b r1.e r2.b r2.e) r1

/-- lower_bound.hpp 23-75 -/
def lowerBound (v : RetV) (r : Rng α) (value : β) (comp : α → β → Bool) : Option Packed := do
  return pack v (← Sprout.lowerBound r.mem r.b r.e value comp).1 r

/-- upper_bound.hpp 23-75 -/
def upperBound (v : RetV) (r : Rng α) (value : β) (comp : β → α → Bool) : Option Packed := do
  return pack v (← Sprout.upperBound r.mem r.b r.e value comp).1 r

/-- equal_range.hpp 22-54: the pair becomes a range -/
def equalRange (r : Rng α) (value : β) (lt : α → β → Bool) (gt : β → α → Bool) : Option Packed := do
  let p ← Sprout.equalRange r.mem r.b r.e value lt gt
  return .rng p.1 p.2.1

/-- min_element.hpp 23-71 -/
def minElement (v : RetV) (r : Rng α) (comp : α → α → Bool) : Option Packed := do
  return pack v (← minElementRa comp r.mem r.b r.e) r

/-- minmax_element.hpp 23-110: both iterators are packed by themselves -/
def minmaxElement (v : RetV) (r : Rng α) (comp : α → α → Bool) : Option (Packed × Packed) := do
  let p ← minmaxElementRa comp r.mem r.b r.e
  return (pack v p.1 r, pack v p.2 r)

/-- is_sorted_until.hpp 23-71 -/
def isSortedUntil (v : RetV) (r : Rng α) (comp : α → α → Bool) : Option Packed := do
  return pack v (← isSortedUntilRa comp r.mem r.b r.e) r

/-- equal.hpp 22-32: only `begin` of the second range is used -/
def equal (r1 : Rng α) (r2 : Rng β) (pred : α → β → Bool) : Option Bool :=
  equalRa r1.mem r2.mem pred r1.b r1.e r2.b

/-- mismatch.hpp 25-50: only `begin` of the second range is used -/
def mismatch (r1 : Rng α) (r2 : Rng β) (pred : α → β → Bool) : Option (Nat × Nat) :=
  mismatchRa r1.mem r2.mem pred r1.b r1.e r2.b

/-- is_permutation.hpp 22-32: only `begin` of the second range is used -/
def isPermutation (r1 r2 : Rng α) (pred : α → α → Bool) : Option Bool :=
  isPermutationRa r1.mem r2.mem pred r1.b r1.e r2.b

end Sprout.RangeAlg
