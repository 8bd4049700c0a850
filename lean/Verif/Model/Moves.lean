import Verif.Model.Find

/-!
# In-place and copying element movers (sprout/algorithm/cxx14/*.hpp)

All iterators point into one memory block `m`, so source and destination ranges may overlap.
`sprout::move(x)` is modelled as a copy: what a moved-from object holds afterwards is unspecified
in C++, and no modelled algorithm reads a moved-from position before overwriting it.
-/

namespace Sprout
variable {α : Type}

/-- The forward "read, maybe write" loop
`for (; first != last; ++first) if (...) *result++ = f(*first); return result;` which is the body of
`copy` (cxx14/copy.hpp 23-29), `move` (move.hpp 24-30), `copy_if` (copy_if.hpp 23-31),
`remove_if` (remove_if.hpp 20-28), `remove` (remove.hpp 20-28), `remove_copy_if` (remove_copy_if.hpp 24-31),
`remove_copy` (remove_copy.hpp 24-31), unary `transform` (transform.hpp), `replace_copy` and
`replace_copy_if`. `emit x = none`: nothing is written for `x`. -/
def emitLoop (emit : α → Option α) (m : List α) (first last result : Nat) : Option (List α × Nat) :=
  if first = last then some (m, result)
  else do
    let x ← rd m first
    match emit x with
    | none => emitLoop emit m (first + 1) last result
    | some y => do
      let m ← wr m result y
      emitLoop emit m (first + 1) last (result + 1)
partial_fixpoint

/-- `sprout::copy` (cxx14/copy.hpp 23-29) -/
def copy (m : List α) (first last result : Nat) : Option (List α × Nat) :=
  emitLoop some m first last result
/-- `sprout::move`, range version (cxx14/move.hpp 24-30) -/
def moveFwd (m : List α) (first last result : Nat) : Option (List α × Nat) :=
  emitLoop some m first last result
/-- `sprout::copy_if` (cxx14/copy_if.hpp 23-31) -/
def copyIf (m : List α) (first last result : Nat) (p : α → Bool) : Option (List α × Nat) :=
  emitLoop (fun x => if p x then some x else none) m first last result
/-- `sprout::transform`, unary (cxx14/transform.hpp) -/
def transform (m : List α) (first last result : Nat) (op : α → α) : Option (List α × Nat) :=
  emitLoop (fun x => some (op x)) m first last result
/-- `sprout::replace_copy_if` (cxx14/replace_copy_if.hpp) -/
def replaceCopyIf (m : List α) (first last result : Nat) (p : α → Bool) (v : α) : Option (List α × Nat) :=
  emitLoop (fun x => some (if p x then v else x)) m first last result
/-- `sprout::remove_copy_if` (cxx14/remove_copy_if.hpp 24-31) -/
def removeCopyIf (m : List α) (first last result : Nat) (p : α → Bool) : Option (List α × Nat) :=
  emitLoop (fun x => if !p x then some x else none) m first last result
/-- `sprout::remove_copy` (cxx14/remove_copy.hpp 24-31) -/
def removeCopy [BEq α] (m : List α) (first last result : Nat) (v : α) : Option (List α × Nat) :=
  emitLoop (fun x => if !(x == v) then some x else none) m first last result
/-- `sprout::remove_if` (cxx14/remove_if.hpp 20-28): `result` starts at `first`. -/
def removeIf (m : List α) (first last : Nat) (p : α → Bool) : Option (List α × Nat) :=
  emitLoop (fun x => if !p x then some x else none) m first last first
/-- `sprout::remove` (cxx14/remove.hpp 20-28) -/
def remove [BEq α] (m : List α) (first last : Nat) (v : α) : Option (List α × Nat) :=
  emitLoop (fun x => if !(x == v) then some x else none) m first last first

/-- `sprout::copy_backward` (cxx14/copy_backward.hpp 23-29): `while (first != last) *--result = *--last;` -/
def copyBackward (m : List α) (first last result : Nat) : Option (List α × Nat) :=
  if first = last then some (m, result)
  else if last = 0 ∨ result = 0 then none
  else do
    let x ← rd m (last - 1)
    let m ← wr m (result - 1) x
    copyBackward m first (last - 1) (result - 1)
partial_fixpoint

/-- `sprout::move_backward` (cxx14/move_backward.hpp 25-30): the loop is
`while (first != last) *--result = sprout::move(*--first);` — it decrements `first`, not `last`. -/
def moveBackward (m : List α) (first last result : Nat) : Option (List α × Nat) :=
  if first = last then some (m, result)
  else if first = 0 ∨ result = 0 then none
  else do
    let x ← rd m (first - 1)
    let m ← wr m (result - 1) x
    moveBackward m (first - 1) last (result - 1)
partial_fixpoint

/-- `sprout::reverse` (cxx14/reverse.hpp 18-24):
`for (; first != last && first != --last; ++first) iter_swap(first, last);` -/
def reverse (m : List α) (first last : Nat) : Option (List α) :=
  if first = last then some m
  else if last = 0 then none
  else if first = last - 1 then some m
  else do
    let m ← swp m first (last - 1)
    reverse m (first + 1) (last - 1)
partial_fixpoint

/-- `sprout::reverse_copy` (cxx14/reverse_copy.hpp 23-29): `while (first != last) *result++ = *--last;` -/
def reverseCopy (m : List α) (first last result : Nat) : Option (List α × Nat) :=
  if first = last then some (m, result)
  else if last = 0 then none
  else do
    let x ← rd m (last - 1)
    let m ← wr m result x
    reverseCopy m first (last - 1) (result + 1)
partial_fixpoint

/-- `sprout::swap_ranges` (cxx14/swap_ranges.hpp 18-25) -/
def swapRanges (m : List α) (first1 last1 first2 : Nat) : Option (List α × Nat) :=
  if first1 = last1 then some (m, first2)
  else do
    let m ← swp m first1 first2
    swapRanges m (first1 + 1) last1 (first2 + 1)
partial_fixpoint

/-- first `while (true)` loop of `sprout::rotate` (cxx14/rotate.hpp 28-37) -/
def rotateLoop1 (m : List α) (first first2 middle last : Nat) : Option (List α × Nat × Nat) := do
  let m ← swp m first first2
  if first2 + 1 = last then some (m, first + 1, middle)
  else rotateLoop1 m (first + 1) (first2 + 1) (if first + 1 = middle then first2 + 1 else middle) last
partial_fixpoint

/-- second `while (true)` loop of `sprout::rotate` (cxx14/rotate.hpp 41-52) -/
def rotateLoop2 (m : List α) (first first2 middle last : Nat) : Option (List α) := do
  let m ← swp m first first2
  if first2 + 1 = last then
    if first + 1 = middle then some m
    else rotateLoop2 m (first + 1) middle middle last
  else rotateLoop2 m (first + 1) (first2 + 1) (if first + 1 = middle then first2 + 1 else middle) last
partial_fixpoint

/-- `sprout::rotate` (cxx14/rotate.hpp 19-55) -/
def rotate (m : List α) (first middle last : Nat) : Option (List α × Nat) :=
  if first = middle then some (m, last)
  else if middle = last then some (m, first)
  else do
    let (m, first, middle) ← rotateLoop1 m first middle middle last
    if first = middle then some (m, first)
    else do
      let m' ← rotateLoop2 m first middle middle last
      some (m', first)

/-- `sprout::rotate_copy` (cxx14/rotate_copy.hpp 24-27) -/
def rotateCopy (m : List α) (first middle last result : Nat) : Option (List α × Nat) := do
  let (m, r) ← copy m middle last result
  copy m first middle r

/-- loop of `sprout::unique` (cxx14/unique.hpp 44-51 with a predicate; 27-34 is the instance `==`) -/
def uniqueLoop (p : α → α → Bool) (m : List α) (first last result : Nat) (value : α) : Option (List α × Nat) :=
  if first = last then do
    let m ← wr m result value
    some (m, result + 1)
  else do
    let x ← rd m first
    if !p value x then do
      let m ← wr m result value
      let y ← rd m first
      uniqueLoop p m (first + 1) last (result + 1) y
    else uniqueLoop p m (first + 1) last result value
partial_fixpoint

/-- `sprout::unique` (cxx14/unique.hpp 36-52) -/
def unique (p : α → α → Bool) (m : List α) (first last : Nat) : Option (List α × Nat) :=
  if first = last then some (m, first)
  else do
    let v ← rd m first
    uniqueLoop p m (first + 1) last first v

/-- loop of `sprout::unique_copy` (cxx14/unique_copy.hpp 51-57) -/
def uniqueCopyLoop (p : α → α → Bool) (m : List α) (first last result : Nat) (value : α) : Option (List α × Nat) :=
  if first = last then some (m, result)
  else do
    let x ← rd m first
    if !p value x then do
      let m ← wr m result x
      uniqueCopyLoop p m (first + 1) last (result + 1) x
    else uniqueCopyLoop p m (first + 1) last result value
partial_fixpoint

/-- `sprout::unique_copy` (cxx14/unique_copy.hpp 44-58) -/
def uniqueCopy (p : α → α → Bool) (m : List α) (first last result : Nat) : Option (List α × Nat) :=
  if first = last then some (m, result)
  else do
    let v ← rd m first
    let m ← wr m result v
    uniqueCopyLoop p m (first + 1) last (result + 1) v

/-- loop of `sprout::partition` (cxx14/partition.hpp 25-30) -/
def partitionLoop (p : α → Bool) (m : List α) (first it last : Nat) : Option (List α × Nat) :=
  if it = last then some (m, first)
  else do
    let m ← swp m first it
    let first ← findIfNotRa m first last p
    let it ← findIfRa m it last p
    partitionLoop p m first it last
partial_fixpoint

/-- `sprout::partition` (cxx14/partition.hpp 20-31) -/
def partition (p : α → Bool) (m : List α) (first last : Nat) : Option (List α × Nat) := do
  let first ← findIfNotRa m first last p
  let it ← findIfRa m first last p
  partitionLoop p m first it last

/-- `sprout::detail::inplace_stable_partition` (cxx14/stable_partition.hpp 20-37). -/
def inplaceStablePartition (p : α → Bool) (m : List α) (first len : Nat) : Option (List α × Nat) :=
  if len = 1 then some (m, first)
  else do
    let middle := first + len / 2
    let (m, leftSplit) ← inplaceStablePartition p m first (len / 2)
    let rightLen := len - len / 2
    let rightSplit ← findIfNotRa m middle (middle + rightLen) p
    let (m, rightSplit) ←
      if rightLen ≠ 0 then inplaceStablePartition p m middle rightLen else some (m, rightSplit)
    let (m, _) ← rotate m leftSplit middle rightSplit
    some (m, leftSplit + (rightSplit - middle))
partial_fixpoint

/-- `sprout::stable_partition` (cxx14/stable_partition.hpp 42-49) -/
def stablePartition (p : α → Bool) (m : List α) (first last : Nat) : Option (List α × Nat) := do
  let first ← findIfNotRa m first last p
  if first = last then some (m, first)
  else inplaceStablePartition p m first (last - first)

/-- `sprout::gather` (cxx14/gather.hpp 20-27); the two calls touch disjoint ranges. -/
def gather (p : α → Bool) (m : List α) (first last pivot : Nat) : Option (List α × Nat × Nat) := do
  let (m, a) ← stablePartition (fun x => !p x) m first pivot
  let (m, b) ← stablePartition p m pivot last
  some (m, a, b)

/-- loop of `sprout::partition_copy` (cxx14/partition_copy.hpp 20-29) -/
def partitionCopy (p : α → Bool) (m : List α) (first last outTrue outFalse : Nat) : Option (List α × Nat × Nat) :=
  if first = last then some (m, outTrue, outFalse)
  else do
    let x ← rd m first
    if p x then do
      let m ← wr m outTrue x
      partitionCopy p m (first + 1) last (outTrue + 1) outFalse
    else do
      let m ← wr m outFalse x
      partitionCopy p m (first + 1) last outTrue (outFalse + 1)
partial_fixpoint

end Sprout
