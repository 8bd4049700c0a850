import Verif.Model.Find

/-!
# min_element, max_element, minmax_element, is_sorted_until, is_sorted, is_partitioned
-/

namespace Sprout
variable {α : Type}

/-- `comp(*i, *j)` -/
def cmpAt (comp : α → α → Bool) (m : List α) (i j : Nat) : Option Bool := do
  let x ← rd m i
  let y ← rd m j
  some (comp x y)

/-- `detail::iter_min` (sprout/algorithm/min_element.hpp 22-26) -/
def iterMin (lt : Nat → Nat → Option Bool) (a b : Nat) : Option Nat := do
  some (if (← lt b a) then b else a)

/-- `detail::min_element_impl_ra` (min_element.hpp 28-48) -/
def minElementImplRa (lt : Nat → Nat → Option Bool) (first last pivot : Nat) : Option Nat :=
  if pivot = 0 then some first
  else do
    let a ← minElementImplRa lt first (first + pivot) (pivot / 2)
    let b ← minElementImplRa lt (first + pivot) last ((last - first - pivot) / 2)
    iterMin lt a b
partial_fixpoint

/-- `min_element`, random access version (min_element.hpp 49-65) -/
def minElementRa (comp : α → α → Bool) (m : List α) (first last : Nat) : Option Nat :=
  if first = last then some last
  else minElementImplRa (cmpAt comp m) first last ((last - first) / 2)

/-- `min_element`, forward version (min_element.hpp 67-114) -/
def minElementFw (comp : α → α → Bool) (m : List α) (first last : Nat) : Option Nat :=
  if first = last then some last
  else do
    let r ← dbl (finIf fun s : Nat × Nat => s.1 == last)
      (fun s => do some (s.1 + 1, ← iterMin (cmpAt comp m) s.2 s.1)) (first + 1, first) 1
    some r.2

/-- `detail::iter_max` (sprout/algorithm/max_element.hpp 22-26) -/
def iterMax (lt : Nat → Nat → Option Bool) (a b : Nat) : Option Nat := do
  some (if (← lt a b) then b else a)

/-- `detail::max_element_impl_ra` (max_element.hpp 28-48) -/
def maxElementImplRa (lt : Nat → Nat → Option Bool) (first last pivot : Nat) : Option Nat :=
  if pivot = 0 then some first
  else do
    let a ← maxElementImplRa lt first (first + pivot) (pivot / 2)
    let b ← maxElementImplRa lt (first + pivot) last ((last - first - pivot) / 2)
    iterMax lt a b
partial_fixpoint

/-- `max_element`, random access version (max_element.hpp 49-65) -/
def maxElementRa (comp : α → α → Bool) (m : List α) (first last : Nat) : Option Nat :=
  if first = last then some last
  else maxElementImplRa (cmpAt comp m) first last ((last - first) / 2)

/-- `max_element`, forward version (max_element.hpp 67-114) -/
def maxElementFw (comp : α → α → Bool) (m : List α) (first last : Nat) : Option Nat :=
  if first = last then some last
  else do
    let r ← dbl (finIf fun s : Nat × Nat => s.1 == last)
      (fun s => do some (s.1 + 1, ← iterMax (cmpAt comp m) s.2 s.1)) (first + 1, first) 1
    some r.2

/-- `detail::iter_minmax_pair` (sprout/algorithm/minmax_element.hpp 22-29) -/
def iterMinmaxPair (lt : Nat → Nat → Option Bool) (a b : Nat × Nat) : Option (Nat × Nat) := do
  let x ← lt b.1 a.1
  let y ← lt b.2 a.2
  some (if x then b.1 else a.1, if y then a.2 else b.2)

/-- `detail::iter_minmax(pair, it, comp)` (minmax_element.hpp 30-37) -/
def iterMinmax2 (lt : Nat → Nat → Option Bool) (a : Nat × Nat) (b : Nat) : Option (Nat × Nat) := do
  let x ← lt b a.1
  let y ← lt b a.2
  some (if x then b else a.1, if y then a.2 else b)

/-- `detail::iter_minmax(it, it, comp)` (minmax_element.hpp 38-46) -/
def iterMinmax (lt : Nat → Nat → Option Bool) (a b : Nat) : Option (Nat × Nat) := do
  some (if (← lt b a) then (b, a) else (a, b))

/-- `detail::minmax_element_impl_ra` (minmax_element.hpp 48-67) -/
def minmaxElementImplRa (lt : Nat → Nat → Option Bool) (first half : Nat) : Option (Nat × Nat) :=
  if half = 1 then iterMinmax lt first (first + 1)
  else do
    let a ← minmaxElementImplRa lt first (half / 2)
    let b ← minmaxElementImplRa lt (first + (half - half % 2)) ((half + 1) / 2)
    iterMinmaxPair lt a b
partial_fixpoint

/-- `minmax_element`, random access version (minmax_element.hpp 69-95) -/
def minmaxElementRa (comp : α → α → Bool) (m : List α) (first last : Nat) : Option (Nat × Nat) :=
  if first = last ∨ first + 1 = last then some (first, first)
  else if (last - first) % 2 = 0 then minmaxElementImplRa (cmpAt comp m) first ((last - first) / 2)
  else do
    let a ← minmaxElementImplRa (cmpAt comp m) first ((last - first) / 2)
    iterMinmax2 (cmpAt comp m) a (last - 1)

/-- `detail::minmax_element_impl_3` (minmax_element.hpp 97-118): one step of the forward version, two elements at a time -/
def minmaxStep (lt : Nat → Nat → Option Bool) (minmax : Nat × Nat) (first next last : Nat) : Option (Nat × (Nat × Nat)) :=
  if next = last then do some (next, ← iterMinmax2 lt minmax first)
  else do some (next + 1, ← iterMinmaxPair lt minmax (← iterMinmax lt first next))

/-- `minmax_element`, forward version (minmax_element.hpp 120-183) -/
def minmaxElementFw (comp : α → α → Bool) (m : List α) (first last : Nat) : Option (Nat × Nat) :=
  if first = last then some (first, first)
  else do
    let s ← if first + 1 = last then some (first + 1, (first, first))
      else do some (first + 1 + 1, ← iterMinmax (cmpAt comp m) first (first + 1))
    let r ← dbl (finIf fun s : Nat × (Nat × Nat) => s.1 == last)
      (fun s => minmaxStep (cmpAt comp m) s.2 s.1 (s.1 + 1) last) s 1
    some r.2

/-- `detail::is_sorted_until_impl_ra` (sprout/algorithm/is_sorted_until.hpp 21-40); `last` is dereferenced -/
def isSortedUntilImplRa (lt : Nat → Nat → Option Bool) (first last pivot found : Nat) : Option Nat :=
  if found ≠ first then some found
  else if pivot = 0 then do some (if (← lt last first) then first else last)
  else do
    let f ← isSortedUntilImplRa lt first (first + pivot) (pivot / 2) first
    isSortedUntilImplRa lt (first + pivot) last ((last - first - pivot) / 2) f
partial_fixpoint

/-- `is_sorted_until`, random access version (is_sorted_until.hpp 41-59) -/
def isSortedUntilRa (comp : α → α → Bool) (m : List α) (first last : Nat) : Option Nat :=
  if first = last ∨ last - first = 1 then some last
  else do
    let r ← isSortedUntilImplRa (cmpAt comp m) first (first + (last - first - 1)) ((last - first - 1) / 2) first
    some (r + 1)

/-- `is_sorted_until`, forward version (is_sorted_until.hpp 61-112) -/
def isSortedUntilFw (comp : α → α → Bool) (m : List α) (first last : Nat) : Option Nat :=
  if first = last then some last
  else do
    let r ← dbl (finIf fun s : Nat × Nat => s.2 == last)
      (fun s => do some (if (← cmpAt comp m s.2 s.1) then (s.1, last) else (s.2, s.2 + 1))) (first, first + 1) 1
    some (r.1 + 1)

/-- `detail::is_sorted_impl_ra` (sprout/algorithm/is_sorted.hpp 24-41); `last` is dereferenced -/
def isSortedImplRa (lt : Nat → Nat → Option Bool) (first last pivot : Nat) : Option Bool :=
  if pivot = 0 then do some (!(← lt last first))
  else do
    let a ← isSortedImplRa lt first (first + pivot) (pivot / 2)
    if a then isSortedImplRa lt (first + pivot) last ((last - first - pivot) / 2) else some false
partial_fixpoint

/-- `is_sorted`, random access version (is_sorted.hpp 42-58) -/
def isSortedRa (comp : α → α → Bool) (m : List α) (first last : Nat) : Option Bool :=
  if first = last ∨ last - first = 1 then some true
  else isSortedImplRa (cmpAt comp m) first (first + (last - first - 1)) ((last - first - 1) / 2)

/-- `is_sorted`, forward version (is_sorted.hpp 60-68) -/
def isSortedFw (comp : α → α → Bool) (m : List α) (first last : Nat) : Option Bool := do
  let r ← isSortedUntilFw comp m first last
  some (r == last)

end Sprout
