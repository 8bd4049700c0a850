import Verif.Model.FixedNumeric
import Verif.Model.FixedMerge
import Verif.Model.FixedShuffle
import Verif.Model.Find

/-!
# Algorithms that return windows

sprout/algorithm/fit, sprout/numeric/fit: the algorithm of sprout/…/fixed, then `sub_copy` of what it has written. The input range is
the list of its elements; `ra` says whether its iterators are random access ones (`false`: forward iterators). Versions without a
comparison are those with `<` or `==`.
-/

namespace Sprout.FitAlg

open ContOp FixedAlg

variable {α β γ σ : Type} [Inhabited α]

/-! ## detail -/

/-- `fit_size` (container/fit_size.hpp 21-26, container_fitness_traits.hpp 24-29): the number is converted to `size_type` -/
def fitSize (c : Cont α) (n : Int) : Int := if n < 0 then c.size else min n c.size

/-- `sub_copy(get_internal(...), offset, offset + n)` with `offset = internal_begin_offset(result)` -/
def window (c : Cont α) (n : Int) (x : Cont α) : Cont α := subCopy (getInternal x) c.beginOff (c.beginOff + n)

/-- `count_if`, `count` of the whole range -/
def countOf (ra : Bool) (p : α → Bool) (xs : List α) : Option Nat := if ra then countIfRa xs 0 xs.length p else countIfIn xs 0 xs.length p

/-- `count_n_if` (detail/algorithm/count_n_if.hpp 21-70): the version for random access iterators is never viable (22: `::pred` for
`::value`) -/
def countNImpl (m : List α) (p : α → Bool) (cur : Nat × Nat) (n : Nat) : Option (Nat × Nat) :=
  if n = 1 then do
    let x ← rd m cur.1
    some (cur.1 + 1, cur.2 + (if p x then 1 else 0))
  else do
    let cur ← countNImpl m p cur (n / 2)
    countNImpl m p cur (n - n / 2)
partial_fixpoint

/-- `count_n_if` (count_n_if.hpp 54-64) -/
def countNIf (m : List α) (p : α → Bool) (n : Nat) : Option Nat :=
  if n = 0 then some 0 else (countNImpl m p (0, 0) n).map (·.2)

/-- `overlap_count_impl_ra` (detail/algorithm/overlap_count.hpp 21-38) -/
def overlapImplRa (m : List α) (p : α → α → Bool) (first last pivot : Nat) : Option Nat :=
  if pivot = 0 then do
    let a ← rd m first
    let b ← rd m last
    some (if p a b then 1 else 0)
  else do
    let a ← overlapImplRa m p first (first + pivot) (pivot / 2)
    let b ← overlapImplRa m p (first + pivot) last ((last - first - pivot) / 2)
    some (a + b)
partial_fixpoint

/-- `overlap_count`, random access (overlap_count.hpp 39-55) -/
def overlapRa (p : α → α → Bool) (xs : List α) : Option Nat :=
  if xs.length = 0 ∨ xs.length = 1 then some 0 else overlapImplRa xs p 0 (xs.length - 1) ((xs.length - 1) / 2)

/-- `overlap_count`, input iterators (overlap_count.hpp 57-109); state: position, element before, count -/
def overlapIn (p : α → α → Bool) (xs : List α) : Option Nat :=
  if xs.length = 0 then some 0
  else do
    let x ← rd xs 0
    let r ← dbl (finIf fun s : Nat × α × Nat => s.1 == xs.length)
      (fun s => do
        let y ← rd xs s.1
        some (s.1 + 1, y, s.2.2 + (if p y s.2.1 then 1 else 0)))
      (1, x, 0) 1
    some r.2.2

/-- `overlap_count` (overlap_count.hpp 117-127) -/
def overlapCount (ra : Bool) (p : α → α → Bool) (xs : List α) : Option Nat := if ra then overlapRa p xs else overlapIn p xs

/-- `set_overlap_count` (detail/algorithm/set_overlap_count.hpp 22-99) -/
def setOverlapCount (comp : α → α → Bool) (xs ys : List α) : Option Nat := do
  let r ← dbl (finIf fun s : Nat × Nat × Nat => s.1 == xs.length || s.2.1 == ys.length)
    (fun s => do
      let x ← rd xs s.1
      let y ← rd ys s.2.1
      some (if comp x y then (s.1 + 1, s.2.1, s.2.2)
        else if comp y x then (s.1, s.2.1 + 1, s.2.2)
        else (s.1 + 1, s.2.1 + 1, s.2.2 + 1)))
    (0, 0, 0) 1
  some r.2.2

/-! ## copies of a range -/

/-- `copy` (fit/copy.hpp 24-36) -/
def copy (ra : Bool) (xs : List α) (c : Cont α) : Option (Cont α) :=
  (if ra then copyRa xs c else copyIn xs c).map (window c (fitSize c xs.length))
/-- `copy_n` (fit/copy_n.hpp 22-34) -/
def copyN (ra : Bool) (xs : List α) (n : Nat) (c : Cont α) : Option (Cont α) :=
  (if ra then copyNRa xs n c else copyNIn xs n c).map (window c (fitSize c n))
/-- `copy_if` (fit/copy_if.hpp 24-36) -/
def copyIf (ra : Bool) (p : α → Bool) (xs : List α) (c : Cont α) : Option (Cont α) := do
  let n ← countOf ra p xs
  (FixedAlg.copyIf p xs c).map (window c (fitSize c n))
/-- `copy_while` (fit/copy_while.hpp 25-37) -/
def copyWhile (ra : Bool) (p : α → Bool) (xs : List α) (c : Cont α) : Option (Cont α) := do
  let n ← if ra then findIfNotRa xs 0 xs.length p else findIfNotIn xs 0 xs.length p
  (if ra then copyWhileRa p xs c else copyWhileIn p xs c).map (window c (fitSize c n))
/-- `copy_until` (fit/copy_until.hpp 25-37) -/
def copyUntil (ra : Bool) (p : α → Bool) (xs : List α) (c : Cont α) : Option (Cont α) := do
  let n ← if ra then findIfRa xs 0 xs.length p else findIfIn xs 0 xs.length p
  (if ra then copyUntilRa p xs c else copyUntilIn p xs c).map (window c (fitSize c n))
/-- `copy_backward` (fit/copy_backward.hpp 23-35, 40-44): here `offset` is `internal_end_offset` -/
def copyBackward (ra : Bool) (xs : List α) (c : Cont α) : Option (Cont α) :=
  (if ra then copyBackwardRa xs c else copyBackwardIn xs c).map fun x =>
    subCopy (getInternal x) (c.endOff - fitSize c xs.length) c.endOff
/-- `transform` (fit/transform.hpp 24-36) -/
def transform (ra : Bool) (f : β → α) (xs : List β) (c : Cont α) : Option (Cont α) :=
  (if ra then transformRa f xs c else transformIn f xs c).map (window c (fitSize c xs.length))
/-- `transform` of two ranges (fit/transform.hpp 49-61) -/
def transform2 (ra : Bool) (f : β → γ → α) (xs : List β) (ys : List γ) (c : Cont α) : Option (Cont α) :=
  (if ra then transform2Ra f xs ys c else transform2In f xs ys c).map (window c (fitSize c xs.length))
/-- `replace_copy_if` (fit/replace_copy_if.hpp 24-36), `replace_copy` (fit/replace_copy.hpp 24-36) -/
def replaceCopyIf (ra : Bool) (p : α → Bool) (v : α) (xs : List α) (c : Cont α) : Option (Cont α) :=
  (if ra then replaceCopyIfRa p v xs c else replaceCopyIfIn p v xs c).map (window c (fitSize c xs.length))
/-- `clamp_range_copy` (fit/clamp_range_copy.hpp 25-39, 58-72) -/
def clampRangeCopy (ra : Bool) (comp : α → α → Bool) (low high : α) (xs : List α) (c : Cont α) : Option (Cont α) :=
  (if ra then clampRangeCopyRa comp low high xs c else clampRangeCopyIn comp low high xs c).map (window c (fitSize c xs.length))
/-- `remove_copy_if` (fit/remove_copy_if.hpp 25-37), `remove_copy` (fit/remove_copy.hpp 25-37) -/
def removeCopyIf (ra : Bool) (p : α → Bool) (xs : List α) (c : Cont α) : Option (Cont α) := do
  let n ← countOf ra p xs
  (FixedAlg.removeCopyIf p xs c).map (window c (fitSize c ((xs.length : Int) - n)))
/-- `unique_copy` (fit/unique_copy.hpp 25-37, 50-62) -/
def uniqueCopy (ra : Bool) (p : α → α → Bool) (xs : List α) (c : Cont α) : Option (Cont α) := do
  let n ← overlapCount ra p xs
  (FixedAlg.uniqueCopy p xs c).map (window c (fitSize c ((xs.length : Int) - n)))
/-- `reverse_copy` (fit/reverse_copy.hpp 23-35) -/
def reverseCopy (ra : Bool) (xs : List α) (c : Cont α) : Option (Cont α) :=
  (if ra then reverseCopyRa xs c else reverseCopyIn xs c).map (window c (fitSize c xs.length))
/-- `rotate_copy` (fit/rotate_copy.hpp 23-35) -/
def rotateCopy (ra : Bool) (xs : List α) (m : Nat) (c : Cont α) : Option (Cont α) :=
  (if ra then rotateCopyRa xs m c else rotateCopyIn xs m c).map (window c (fitSize c xs.length))
/-- `swap_element_copy` (fit/swap_element_copy.hpp 23-35) -/
def swapElementCopy (ra : Bool) (xs : List α) (p q : Int) (c : Cont α) : Option (Cont α) :=
  (if ra then swapElementCopyRa xs p q c else swapElementCopyIn xs p q c).map (window c (fitSize c xs.length))
/-- `partition_copy` (fit/partition_copy.hpp 27-42) -/
def partitionCopy (p : α → Bool) (xs : List α) (c : Cont α) : Option (Cont α) := do
  let n ← countNIf xs p (min xs.length c.size.toNat)
  (FixedAlg.partitionCopy p xs c).map (window c (fitSize c n))
/-- `stable_partition_copy` (fit/stable_partition_copy.hpp 23-35) -/
def stablePartitionCopy (ra : Bool) (p : α → Bool) (xs : List α) (c : Cont α) : Option (Cont α) := do
  let n ← countOf ra p xs
  (FixedAlg.stablePartitionCopy p xs c).map (window c (fitSize c n))
/-- `merge` (fit/merge.hpp 24-38, 58-73) -/
def merge (comp : α → α → Bool) (xs ys : List α) (c : Cont α) : Option (Cont α) :=
  (mergeTo comp xs ys c).map (window c (fitSize c (xs.length + ys.length)))
/-- `set_union` (fit/set_union.hpp 25-41, 62-78) -/
def setUnion (comp : α → α → Bool) (xs ys : List α) (c : Cont α) : Option (Cont α) := do
  let n ← setOverlapCount comp xs ys
  (setUnionTo comp xs ys c).map (window c (fitSize c ((xs.length : Int) + ys.length - n)))
/-- `set_intersection` (fit/set_intersection.hpp 24-40, 61-77) -/
def setIntersection (comp : α → α → Bool) (xs ys : List α) (c : Cont α) : Option (Cont α) := do
  let n ← setOverlapCount comp xs ys
  (setIntersectionTo comp xs ys c).map (window c (fitSize c n))
/-- `set_difference` (fit/set_difference.hpp 25-41, 62-78) -/
def setDifference (comp : α → α → Bool) (xs ys : List α) (c : Cont α) : Option (Cont α) := do
  let n ← setOverlapCount comp xs ys
  (setDifferenceTo comp xs ys c).map (window c (fitSize c ((xs.length : Int) - n)))
/-- `set_symmetric_difference` (fit/set_symmetric_difference.hpp 25-41, 62-78) -/
def setSymmetricDifference (comp : α → α → Bool) (xs ys : List α) (c : Cont α) : Option (Cont α) := do
  let n ← setOverlapCount comp xs ys
  (setSymmetricDifferenceTo comp xs ys c).map (window c (fitSize c ((xs.length : Int) + ys.length - 2 * n)))

/-! ## changes of a container -/

/-- a window as long as the container: `reverse`, `rotate`, `swap_element`, `replace`, `replace_if`, `clamp_range`, `fill`, `generate`,
`unfold`, `recurrence`, `make_heap`, `push_heap`, `sort_heap`, `sort`, `stable_sort`, `inplace_merge`, `shuffle`, `random_swap`,
`bogo_sort`, `bozo_sort`, `iota` (the lines from `return sub_copy(` on, e.g. fit/reverse.hpp 29-33; numeric/fit/iota.hpp 29-33) -/
def whole (c : Cont α) (r : Option (Cont α)) : Option (Cont α) := r.map (window c c.size)
/-- `next_permutation`, `prev_permutation` (fit/next_permutation.hpp 23-51, fit/prev_permutation.hpp 22-49) -/
def wholeFst (c : Cont α) (r : Option (Cont α × σ)) : Option (Cont α × σ) := r.map fun x => (window c c.size x.1, x.2)
/-- `shuffle_result`, `random_swap_result`, `bogo_sort_result`, `bozo_sort_result` (fit/shuffle_result.hpp 26-63, …): the size is that
of the result -/
def wholeResult (c : Cont α) (r : Option (Cont α × σ)) : Option (Cont α × σ) := r.map fun x => (window c x.1.size x.1, x.2)

/-- `fill_n` (fit/fill_n.hpp 24-36), `generate_n`, `unfold_n` (fit/generate_n.hpp 24-36, fit/unfold_n.hpp 24-36), `recurrence_n`
(fit/recurrence_n.hpp 24-37) -/
def firstN (c : Cont α) (n : Nat) (r : Option (Cont α)) : Option (Cont α) := r.map (window c (min n c.size))

/-- `remove_if` (fit/remove_if.hpp 24-36), `remove` (fit/remove.hpp 24-36) -/
def removeIf (p : α → Bool) (c : Cont α) : Option (Cont α) := do
  let l ← elems c
  let n ← countOf true p l
  (FixedAlg.removeCopyIf p l c).map (window c (c.size - n))
/-- `unique` (fit/unique.hpp 24-35, 48-59) -/
def unique (p : α → α → Bool) (c : Cont α) : Option (Cont α) := do
  let l ← elems c
  let n ← overlapCount true p l
  (FixedAlg.uniqueCopy p l c).map (window c (c.size - n))
/-- `partition` (fit/partition.hpp 24-36) -/
def partition (p : α → Bool) (c : Cont α) : Option (Cont α) := do
  let l ← elems c
  let n ← countOf true p l
  (FixedAlg.partitionCopy p l c).map (window c (c.size - n))
/-- `stable_partition` (fit/stable_partition.hpp 24-36) -/
def stablePartition (p : α → Bool) (c : Cont α) : Option (Cont α) := do
  let l ← elems c
  let n ← countOf true p l
  (FixedAlg.stablePartitionCopy p l c).map (window c (c.size - n))
/-- `pop_heap` (fit/pop_heap.hpp 23-34, 47-58) -/
def popHeap (comp : α → α → Bool) (c : Cont α) : Option (Cont α) := (FixedAlg.popHeap comp c).map (window c (c.size - 1))
/-- `make_partial_heap` (fit/make_partial_heap.hpp 24-35, 48-59) -/
def makePartialHeap (comp : α → α → Bool) (m : Nat) (c : Cont α) : Option (Cont α) := (FixedAlg.makePartialHeap comp m c).map (window c m)
/-- `partial_sort` (fit/partial_sort.hpp 24-35, 48-59) -/
def partialSort (comp : α → α → Bool) (m : Nat) (c : Cont α) : Option (Cont α) := (FixedAlg.partialSort comp m c).map (window c m)
/-- `nth_element` (fit/nth_element.hpp 24-35, 48-59) -/
def nthElement (comp : α → α → Bool) (m : Nat) (c : Cont α) : Option (Cont α) := (FixedAlg.nthElement comp m c).map (window c (m + 1))

/-! ## numeric -/

/-- `partial_sum`, `inclusive_scan`, `transform_inclusive_scan` (numeric/fit/partial_sum.hpp 25-36, inclusive_scan.hpp 25-36, 50-62,
transform_inclusive_scan.hpp 25-37). `partial_sum` with an operation (partial_sum.hpp 50-61) calls `min` of two types and does not
compile. -/
def transformInclusiveScan (op : α → α → α) (un : β → α) (xs : List β) (c : Cont α) : Option (Cont α) :=
  (transformInclusiveScanTo op un xs c).map (window c (min xs.length c.size))
/-- `inclusive_scan` with an initial value (numeric/fit/inclusive_scan.hpp 76-88) -/
def inclusiveScanInit (op : α → α → α) (xs : List α) (init : α) (c : Cont α) : Option (Cont α) :=
  (inclusiveScanInitTo op xs init c).map (window c (min ((xs.length : Int) + 1) c.size))
/-- `exclusive_scan`, `transform_exclusive_scan` (numeric/fit/exclusive_scan.hpp 25-37, 51-63, transform_exclusive_scan.hpp 25-37) -/
def transformExclusiveScan (op : α → α → α) (un : β → α) (xs : List β) (init : α) (c : Cont α) : Option (Cont α) :=
  (transformExclusiveScanTo op un xs init c).map (window c (min xs.length c.size))

end Sprout.FitAlg
