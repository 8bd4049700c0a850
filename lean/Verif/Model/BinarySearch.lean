import Verif.Model.Find

/-!
# Binary searches

Every function returns the position together with the number of predicate/comparator calls made,
so that the logarithmic bound can be stated about the code itself.
-/

namespace Sprout
variable {α β : Type}

/-- The bisection skeleton of `detail::lower_bound` (sprout/algorithm/lower_bound.hpp 22-34),
`detail::upper_bound` (upper_bound.hpp 22-34, whose two branches are exchanged: it goes right when the
comparison fails) and the loop of the C++14 `partition_point` (partition_point.hpp 57-72).
`test` is the "go right" condition. -/
def bisect (test : Nat → Option Bool) (first len : Nat) : Option (Nat × Nat) :=
  if len = 0 then some (first, 0)
  else do
    let b ← test (first + len / 2)
    let r ← if b then bisect test (first + (len / 2 + 1)) (len - (len / 2 + 1)) else bisect test first (len / 2)
    some (r.1, r.2 + 1)
partial_fixpoint

/-- `sprout::lower_bound` (lower_bound.hpp 42-52) -/
def lowerBound (m : List α) (first last : Nat) (v : β) (comp : α → β → Bool) : Option (Nat × Nat) :=
  bisect (testAt m (fun x => comp x v)) first (last - first)

/-- `sprout::upper_bound` (upper_bound.hpp 42-52) -/
def upperBound (m : List α) (first last : Nat) (v : β) (comp : β → α → Bool) : Option (Nat × Nat) :=
  bisect (testAt m (fun x => !comp v x)) first (last - first)

/-- `sprout::partition_point`, C++14 loop (partition_point.hpp 57-72) -/
def partitionPoint (m : List α) (first last : Nat) (p : α → Bool) : Option (Nat × Nat) :=
  bisect (testAt m p) first (last - first)

/-- `partition_point_impl`, C++11 recursion (partition_point.hpp 22-35) -/
def partitionPointImpl (m : List α) (p : α → Bool) (first last mid : Nat) : Option (Nat × Nat) :=
  if mid = last then some (mid, 0)
  else do
    let b ← testAt m p mid
    let r ← if b then partitionPointImpl m p (mid + 1) last (mid + (1 + (last - mid - 1) / 2))
      else partitionPointImpl m p first mid (first + (mid - first) / 2)
    some (r.1, r.2 + 1)
partial_fixpoint

/-- `sprout::partition_point`, C++11 (partition_point.hpp 43-50) -/
def partitionPoint11 (m : List α) (first last : Nat) (p : α → Bool) : Option (Nat × Nat) :=
  partitionPointImpl m p first last (first + (last - first) / 2)

/-- `detail::equal_range` (equal_range.hpp 24-41). Result: lower, upper, number of calls. The two
comparator orientations may have different argument types, as in the code. -/
def equalRangeImpl (m : List α) (v : β) (lt : α → β → Bool) (gt : β → α → Bool) (first len : Nat) :
    Option (Nat × Nat × Nat) :=
  if len = 0 then some (first, first, 0)
  else do
    let b ← testAt m (fun x => lt x v) (first + len / 2)
    if b then do
      let r ← equalRangeImpl m v lt gt (first + (len / 2 + 1)) (len - (len / 2 + 1))
      some (r.1, r.2.1, r.2.2 + 1)
    else do
      let c ← testAt m (fun x => gt v x) (first + len / 2)
      if c then do
        let r ← equalRangeImpl m v lt gt first (len / 2)
        some (r.1, r.2.1, r.2.2 + 2)
      else do
        let l ← bisect (testAt m (fun x => lt x v)) first (len / 2)
        let u ← bisect (testAt m (fun x => !gt v x)) (first + (len / 2 + 1)) (len - (len / 2 + 1))
        some (l.1, u.1, l.2 + u.2 + 2)
partial_fixpoint

/-- `sprout::equal_range` (equal_range.hpp 49-59) -/
def equalRange (m : List α) (first last : Nat) (v : β) (lt : α → β → Bool) (gt : β → α → Bool) :
    Option (Nat × Nat × Nat) :=
  equalRangeImpl m v lt gt first (last - first)

/-- `sprout::binary_search` (binary_search.hpp 18-40). Result: answer and number of calls. -/
def binarySearch (m : List α) (first last : Nat) (v : β) (lt : α → β → Bool) (gt : β → α → Bool) :
    Option (Bool × Nat) := do
  let r ← lowerBound m first last v lt
  if r.1 = last then some (false, r.2)
  else do
    let c ← testAt m (fun x => gt v x) r.1
    some (!c, r.2 + 1)

end Sprout
