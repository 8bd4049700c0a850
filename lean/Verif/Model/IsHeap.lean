import Verif.Model.Find

/-!
# is_heap / is_heap_until
-/

namespace Sprout
variable {α : Type}

/-- leaf test of `is_heap_until_impl`: `!comp(it[first], it[(first - 1) / 2])`
(sprout/algorithm/is_heap_until.hpp 27) -/
def heapTest (comp : α → α → Bool) (m : List α) (it i : Nat) : Option Bool := do
  let x ← rd m (it + i)
  let y ← rd m (it + (i - 1) / 2)
  some (!comp x y)

/-- `sprout::is_heap_until` (is_heap_until.hpp 18-65): the halving search over the offsets `1 .. size-1`
(the recursion of lines 26-37 is the skeleton `halveFind`). -/
def isHeapUntil (comp : α → α → Bool) (m : List α) (first last : Nat) : Option Nat :=
  if last - first < 2 then some last
  else do
    let r ← halveFind (fun i _ => heapTest comp m first i) 1 (last - first) ((last - first - 1) / 2) 1
    some (first + r)

/-- `sprout::is_heap` (is_heap.hpp 26-30) -/
def isHeap (comp : α → α → Bool) (m : List α) (first last : Nat) : Option Bool := do
  let r ← isHeapUntil comp m first last
  some (r == last)

end Sprout
