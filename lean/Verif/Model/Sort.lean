import Verif.Model.MinMax
import Verif.Model.Moves

/-!
# sort and nth_element

`sprout/algorithm/cxx14/sort.hpp`, `nth_element.hpp`, `detail/sort_tool.hpp`. The swap counter
(`unsigned` in C++) is a natural number here: it only selects between two correct continuations.
-/

namespace Sprout
variable {α : Type}

/-- the two-element case of several routines (sort.hpp 41-45, nth_element.hpp 34-38, detail/sort_tool.hpp 141-145) -/
def sort2Case (comp : α → α → Bool) (m : List α) (first last : Nat) : Option (List α) := do
  if ← cmpAt comp m (last - 1) first then swp m first (last - 1) else some m

/-- `sprout::detail::sort3` (detail/sort_tool.hpp 19-46) -/
def sort3 (comp : α → α → Bool) (m : List α) (x y z : Nat) : Option (List α × Nat) := do
  if !(← cmpAt comp m y x) then
    if !(← cmpAt comp m z y) then some (m, 0)
    else
      let m ← swp m y z
      if ← cmpAt comp m y x then
        let m ← swp m x y
        some (m, 2)
      else some (m, 1)
  else if ← cmpAt comp m z y then
    let m ← swp m x z
    some (m, 1)
  else
    let m ← swp m x y
    if ← cmpAt comp m z y then
      let m ← swp m y z
      some (m, 2)
    else some (m, 1)

/-- `sprout::detail::sort4` (detail/sort_tool.hpp 47-64) -/
def sort4 (comp : α → α → Bool) (m : List α) (x1 x2 x3 x4 : Nat) : Option (List α × Nat) := do
  let (m, r) ← sort3 comp m x1 x2 x3
  if ← cmpAt comp m x4 x3 then
    let m ← swp m x3 x4
    if ← cmpAt comp m x3 x2 then
      let m ← swp m x2 x3
      if ← cmpAt comp m x2 x1 then
        let m ← swp m x1 x2
        some (m, r + 3)
      else some (m, r + 2)
    else some (m, r + 1)
  else some (m, r)

/-- `sprout::detail::sort5` (detail/sort_tool.hpp 65-86) -/
def sort5 (comp : α → α → Bool) (m : List α) (x1 x2 x3 x4 x5 : Nat) : Option (List α × Nat) := do
  let (m, r) ← sort4 comp m x1 x2 x3 x4
  if ← cmpAt comp m x5 x4 then
    let m ← swp m x4 x5
    if ← cmpAt comp m x4 x3 then
      let m ← swp m x3 x4
      if ← cmpAt comp m x3 x2 then
        let m ← swp m x2 x3
        if ← cmpAt comp m x2 x1 then
          let m ← swp m x1 x2
          some (m, r + 4)
        else some (m, r + 3)
      else some (m, r + 2)
    else some (m, r + 1)
  else some (m, r)

/-- `sprout::detail::selection_sort` (detail/sort_tool.hpp 87-97); `last` must not equal `first`.
`sprout::min_element` is the random access version. -/
def selectionSort (comp : α → α → Bool) (m : List α) (first last : Nat) : Option (List α) :=
  if last = 0 then none
  else if first = last - 1 then some m
  else do
    let i ← minElementRa comp m first last
    let m ← if i ≠ first then swp m first i else some m
    selectionSort comp m (first + 1) last
partial_fixpoint

/-- the `do`-`while` loop shared by `insertion_sort_3` and `insertion_sort_incomplete`
(detail/sort_tool.hpp 125-129 and 166-170):
`do { *j = *k; j = k; } while (j != first && comp(t, *--k)); *j = t;` -/
def insertDo (comp : α → α → Bool) (m : List α) (first : Nat) (t : α) (j k : Nat) : Option (List α) := do
  let x ← rd m k
  let m ← wr m j x
  if k = first then wr m k t
  else if k = 0 then none
  else do
    let y ← rd m (k - 1)
    if comp t y then insertDo comp m first t k (k - 1)
    else wr m k t
partial_fixpoint

/-- the `for` loop of `insertion_sort_3` (detail/sort_tool.hpp 120-132) -/
def insertionSort3Loop (comp : α → α → Bool) (m : List α) (first last i j : Nat) : Option (List α) :=
  if i = last then some m
  else do
    let m ← if ← cmpAt comp m i j then do
        let t ← rd m i
        insertDo comp m first t i j
      else some m
    insertionSort3Loop comp m first last (i + 1) i
partial_fixpoint

/-- `sprout::detail::insertion_sort_3` (detail/sort_tool.hpp 114-133) -/
def insertionSort3 (comp : α → α → Bool) (m : List α) (first last : Nat) : Option (List α) := do
  let (m, _) ← sort3 comp m first (first + 1) (first + 2)
  insertionSort3Loop comp m first last (first + 3) (first + 2)

/-- the `for` loop of `insertion_sort_incomplete` (detail/sort_tool.hpp 161-177) -/
def insertionIncLoop (comp : α → α → Bool) (m : List α) (first last i j count : Nat) : Option (List α × Bool) :=
  if i = last then some (m, true)
  else do
    if ← cmpAt comp m i j then
      let t ← rd m i
      let m ← insertDo comp m first t i j
      if count + 1 = 8 then some (m, i + 1 == last)
      else insertionIncLoop comp m first last (i + 1) i (count + 1)
    else insertionIncLoop comp m first last (i + 1) i count
partial_fixpoint

/-- `sprout::detail::insertion_sort_incomplete` (detail/sort_tool.hpp 134-178) -/
def insertionSortIncomplete (comp : α → α → Bool) (m : List α) (first last : Nat) : Option (List α × Bool) :=
  if last - first = 0 ∨ last - first = 1 then some (m, true)
  else if last - first = 2 then do
    let m ← sort2Case comp m first last
    some (m, true)
  else if last - first = 3 then do
    let (m, _) ← sort3 comp m first (first + 1) (last - 1)
    some (m, true)
  else if last - first = 4 then do
    let (m, _) ← sort4 comp m first (first + 1) (first + 2) (last - 1)
    some (m, true)
  else if last - first = 5 then do
    let (m, _) ← sort5 comp m first (first + 1) (first + 2) (first + 3) (last - 1)
    some (m, true)
  else do
    let (m, _) ← sort3 comp m first (first + 1) (first + 2)
    insertionIncLoop comp m first last (first + 3) (first + 2) 0

/-- `while (test(i)) ++i;` -/
def scanUp (test : Nat → Option Bool) (i : Nat) : Option Nat := do
  if ← test i then scanUp test (i + 1) else some i
partial_fixpoint

/-- `while (test(--j)) ;` -/
def scanDown (test : Nat → Option Bool) (j : Nat) : Option Nat :=
  if j = 0 then none
  else do
    if ← test (j - 1) then scanDown test (j - 1) else some (j - 1)
partial_fixpoint

/-- `while (true) { if (i == --j) {...} if (comp(*j, *m)) {...break;} }`
(sort.hpp 82-83, 119; nth_element.hpp 57-58, 98): `none` (inside) if `j` ran down to `i`, else the `j` found -/
def findGuard (test : Nat → Option Bool) (i j : Nat) : Option (Option Nat) :=
  if j = 0 then none
  else if i = j - 1 then some none
  else do
    if ← test (j - 1) then some (some (j - 1)) else findGuard test i (j - 1)
partial_fixpoint

/-- sort.hpp 87-98, nth_element.hpp 62-73: looks for the first `i` with `*first < *i` and swaps it to `j`;
`none` (inside) if there is none -/
def eqGuard (comp : α → α → Bool) (m : List α) (first i j : Nat) : Option (Option (List α × Nat)) :=
  if i = j then some none
  else do
    if ← cmpAt comp m first i then
      let m ← swp m i j
      some (some (m, i + 1))
    else eqGuard comp m first (i + 1) j
partial_fixpoint

/-- sort.hpp 103-115, nth_element.hpp 78-90 -/
def eqPart (comp : α → α → Bool) (m : List α) (first i j : Nat) : Option (List α × Nat) := do
  let i ← scanUp (fun k => do some (!(← cmpAt comp m first k))) i
  let j ← scanDown (fun k => cmpAt comp m first k) j
  if j ≤ i then some (m, i)
  else do
    let m ← swp m i j
    eqPart comp m first (i + 1) j
partial_fixpoint

/-- sort.hpp 84-117, nth_element.hpp 59-94: partition into elements equivalent to `*first` and greater
ones; the inner `none` means that the whole range is sorted -/
def eqPath (comp : α → α → Bool) (m : List α) (first last : Nat) : Option (List α × Option Nat) := do
  let i := first + 1
  let j := last - 1
  let s ← if ← cmpAt comp m first j then some (some (m, i)) else eqGuard comp m first i j
  match s with
  | none => some (m, none)
  | some (m, i) =>
    if i = j then some (m, none)
    else do
      let (m, i) ← eqPart comp m first i j
      some (m, some i)

/-- sort.hpp 128-143 (`brk i j := i > j`), nth_element.hpp 110-125 (`brk i j := i >= j`):
the unguarded partition around `*m`; returns block, `i`, `m` and the swap count -/
def partLoop (brk : Nat → Nat → Bool) (comp : α → α → Bool) (m : List α) (i j pm n : Nat) : Option (List α × Nat × Nat × Nat) := do
  let i ← scanUp (fun k => cmpAt comp m k pm) i
  let j ← scanDown (fun k => do some (!(← cmpAt comp m k pm))) j
  if brk i j then some (m, i, pm, n)
  else do
    let m ← swp m i j
    partLoop brk comp m (i + 1) j (if pm = i then j else pm) (n + 1)
partial_fixpoint

/-- result of the partitioning phase -/
inductive PartRes (α : Type) where
  /-- the range is sorted: `return true` / `return` -/
  | sorted (m : List α)
  /-- `[first, i)` is equivalent to `*first`, the rest greater: `first = i` and restart -/
  | restart (m : List α) (i : Nat)
  /-- partitioned around position `i`; swap count -/
  | split (m : List α) (i n : Nat)

/-- sort.hpp 79-148, nth_element.hpp 53-130: from the choice of the pivot position `pm` (with `n` swaps
so far) to the finished partition -/
def partitionPhase (brk : Nat → Nat → Bool) (comp : α → α → Bool) (m : List α) (first last pm n : Nat) : Option (PartRes α) := do
  let i := first
  let j := last - 1
  let s ← if ← cmpAt comp m i pm then some (some (m, j, n))
    else do
      match ← findGuard (fun k => cmpAt comp m k pm) i j with
      | none => some none
      | some j => do some (some (← swp m i j, j, n + 1))
  match s with
  | none =>
    match ← eqPath comp m first last with
    | (m, none) => some (.sorted m)
    | (m, some i) => some (.restart m i)
  | some (m, j, n) =>
    let i := i + 1
    let (m, i, pm, n) ← if i < j then partLoop brk comp m i j pm n else some (m, i, pm, n)
    let c ← if i ≠ pm then cmpAt comp m pm i else some false
    if c then do
      let m ← swp m i pm
      some (.split m i (n + 1))
    else some (.split m i n)

/-- what one call of `sort_impl` asks for: nothing, another round on `[first, last)`, or
a recursive call for the smaller of the two sides of `i` and another round on the other -/
inductive SortRes (α : Type) where
  | done (m : List α)
  | again (m : List α) (first last : Nat)
  | both (m : List α) (i : Nat)

/-- `sprout::detail::sort_impl` (sort.hpp 25-170) up to the recursive calls of lines 162-169;
`limit` is 30 or 6 depending on the element type (31-35) -/
def sortStep (limit : Nat) (comp : α → α → Bool) (m : List α) (first last : Nat) : Option (SortRes α) :=
  let len := last - first
  if len = 0 ∨ len = 1 then some (.done m)
  else if len = 2 then do
    let m ← sort2Case comp m first last
    some (.done m)
  else if len = 3 then do
    let (m, _) ← sort3 comp m first (first + 1) (last - 1)
    some (.done m)
  else if len = 4 then do
    let (m, _) ← sort4 comp m first (first + 1) (first + 2) (last - 1)
    some (.done m)
  else if len = 5 then do
    let (m, _) ← sort5 comp m first (first + 1) (first + 2) (first + 3) (last - 1)
    some (.done m)
  else if len ≤ limit then do
    let m ← insertionSort3 comp m first last
    some (.done m)
  else do
    let pm := first + len / 2
    let (m, n) ← if 1000 ≤ len then sort5 comp m first (first + len / 2 / 2) pm (pm + len / 2 / 2) (last - 1)
      else sort3 comp m first pm (last - 1)
    match ← partitionPhase (fun i j => decide (j < i)) comp m first last pm n with
    | .sorted m => some (.done m)
    | .restart m i => some (.again m i last)
    | .split m i n =>
      if n = 0 then do
        let (m, fs) ← insertionSortIncomplete comp m first i
        let (m, ls) ← insertionSortIncomplete comp m (i + 1) last
        if ls then
          if fs then some (.done m) else some (.again m first i)
        else if fs then some (.again m (i + 1) last)
        else some (.both m i)
      else some (.both m i)

/-- `sprout::detail::sort` (sort.hpp 171-177) with the recursive calls of `sort_impl` (162-169) -/
def sort (limit : Nat) (comp : α → α → Bool) (m : List α) (first last : Nat) : Option (List α) := do
  match ← sortStep limit comp m first last with
  | .done m => some m
  | .again m first last => sort limit comp m first last
  | .both m i =>
    if i - first < last - i then do
      let m ← sort limit comp m first i
      sort limit comp m (i + 1) last
    else do
      let m ← sort limit comp m (i + 1) last
      sort limit comp m first i
partial_fixpoint

/-- nth_element.hpp 138-145 and 151-158: `j = m = a; while (++j != b) { if (comp(*j, *m)) → not sorted; m = j; }` -/
def sortedCheck (comp : α → α → Bool) (m : List α) (j b pm : Nat) : Option Bool :=
  if j + 1 = b then some true
  else do
    if ← cmpAt comp m (j + 1) pm then some false
    else sortedCheck comp m (j + 1) b (j + 1)
partial_fixpoint

/-- `sprout::detail::nth_element` (nth_element.hpp 20-172) -/
def nthElement (comp : α → α → Bool) (m : List α) (first nth last : Nat) : Option (List α) :=
  if nth = last then some m
  else
    let len := last - first
    if len = 0 ∨ len = 1 then some m
    else if len = 2 then sort2Case comp m first last
    else if len = 3 then do
      let (m, _) ← sort3 comp m first (first + 1) (last - 1)
      some m
    else if len ≤ 7 then selectionSort comp m first last
    else do
      let pm := first + len / 2
      let (m, n) ← sort3 comp m first pm (last - 1)
      match ← partitionPhase (fun i j => decide (j ≤ i)) comp m first last pm n with
      | .sorted m => some m
      | .restart m i => if nth < i then some m else nthElement comp m i nth last
      | .split m i n =>
        if nth = i then some m
        else do
          let stop ← if n = 0 then
              if nth < i then sortedCheck comp m first i first else sortedCheck comp m i last i
            else some false
          if stop then some m
          else if nth < i then nthElement comp m first nth i
          else nthElement comp m (i + 1) nth last
partial_fixpoint

end Sprout
