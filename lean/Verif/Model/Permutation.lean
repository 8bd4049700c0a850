import Verif.Model.Moves
import Verif.Model.MinMax

/-!
# next_permutation, prev_permutation

`sprout/algorithm/cxx14/next_permutation.hpp`, `prev_permutation.hpp`. `cmp i j` stands for the test
`comp(*i, *j)` (next) or `comp(*j, *i)` (prev).
-/

namespace Sprout
variable {α : Type}

/-- `while (!comp(*i, *--j)) ;` (next_permutation.hpp 31-32; prev_permutation.hpp 31-32), the resulting `j` -/
def permFind (cmp : Nat → Nat → Option Bool) (i j : Nat) : Option Nat :=
  if j = 0 then none
  else do
    if !(← cmp i (j - 1)) then permFind cmp i (j - 1) else some (j - 1)
partial_fixpoint

/-- the `while (true)` loop (next_permutation.hpp 27-41; prev_permutation.hpp 27-41) -/
def permScan (cmp : List α → Nat → Nat → Option Bool) (m : List α) (first last i : Nat) : Option (List α × Bool) :=
  if i = 0 then none
  else do
    if ← cmp m (i - 1) i then do
      let j ← permFind (cmp m) (i - 1) last
      let m ← swp m (i - 1) j
      let m ← reverse m i last
      some (m, true)
    else if i - 1 = first then do
      let m ← reverse m first last
      some (m, false)
    else permScan cmp m first last (i - 1)
partial_fixpoint

/-- `sprout::next_permutation` (next_permutation.hpp 20-42) -/
def nextPermutation (comp : α → α → Bool) (m : List α) (first last : Nat) : Option (List α × Bool) :=
  if first = last then some (m, false)
  else if first = last - 1 then some (m, false)
  else permScan (fun m i j => cmpAt comp m i j) m first last (last - 1)

/-- `sprout::prev_permutation` (prev_permutation.hpp 20-42): both comparisons have their operands exchanged -/
def prevPermutation (comp : α → α → Bool) (m : List α) (first last : Nat) : Option (List α × Bool) :=
  if first = last then some (m, false)
  else if first = last - 1 then some (m, false)
  else permScan (fun m i j => cmpAt comp m j i) m first last (last - 1)

end Sprout
