import Verif.Model.Merge

/-!
# stable_sort

`sprout/algorithm/cxx14/stable_sort.hpp`, `detail/insertion_sort.hpp`. The routines are parameterised by
the range-moving function `mb`, which in the code is `sprout::move_backward`, so that the effect of that
function's defect can be separated from the rest.
-/

namespace Sprout
variable {α : Type}

/-- the loop of `unguarded_linear_insert` (detail/insertion_sort.hpp 25-30) with `next = last - 1` -/
def linearInsertLoop (comp : α → α → Bool) (val : α) (m : List α) (last : Nat) : Option (List α) :=
  if last = 0 then none
  else do
    let x ← rd m (last - 1)
    if comp val x then do
      let m ← wr m last x
      linearInsertLoop comp val m (last - 1)
    else wr m last val
partial_fixpoint

/-- `sprout::detail::unguarded_linear_insert` (detail/insertion_sort.hpp 18-31) -/
def unguardedLinearInsert (comp : α → α → Bool) (m : List α) (last : Nat) : Option (List α) := do
  let val ← rd m last
  linearInsertLoop comp val m last

/-- one round of the loop of `insertion_sort` (detail/insertion_sort.hpp 41-47) -/
def insertOne (mb : List α → Nat → Nat → Nat → Option (List α × Nat)) (comp : α → α → Bool) (m : List α) (first i : Nat) : Option (List α) := do
  if ← cmpAt comp m i first then do
    let val ← rd m i
    let r ← mb m first i (i + 1)
    wr r.1 first val
  else unguardedLinearInsert comp m i

/-- the loop of `sprout::detail::insertion_sort` (detail/insertion_sort.hpp 40-48) -/
def insertionSortLoop (mb : List α → Nat → Nat → Nat → Option (List α × Nat)) (comp : α → α → Bool) (m : List α) (first last i : Nat) : Option (List α) :=
  if i = last then some m
  else do
    let m ← insertOne mb comp m first i
    insertionSortLoop mb comp m first last (i + 1)
partial_fixpoint

/-- `sprout::detail::insertion_sort` (detail/insertion_sort.hpp 33-49) -/
def insertionSort (mb : List α → Nat → Nat → Nat → Option (List α × Nat)) (comp : α → α → Bool) (m : List α) (first last : Nat) : Option (List α) :=
  if first = last then some m else insertionSortLoop mb comp m first last (first + 1)

/-- `sprout::detail::inplace_stable_sort` (stable_sort.hpp 18-29) -/
def inplaceStableSort (mb : List α → Nat → Nat → Nat → Option (List α × Nat)) (comp : α → α → Bool) (m : List α) (first last : Nat) : Option (List α) :=
  if last - first < 15 then insertionSort mb comp m first last
  else do
    let middle := first + (last - first) / 2
    let m ← inplaceStableSort mb comp m first middle
    let m ← inplaceStableSort mb comp m middle last
    inplaceMergeImpl comp m first middle last (middle - first) (last - middle)
partial_fixpoint

/-- `sprout::stable_sort` (stable_sort.hpp 34-38) -/
def stableSort (comp : α → α → Bool) (m : List α) (first last : Nat) : Option (List α) :=
  inplaceStableSort moveBackward comp m first last

end Sprout
