import Verif.Basic

/-!
# Heap algorithms (sprout/algorithm/cxx14)

A binary heap occupies the positions `first .. first+len-1` of a memory block; the parent of offset
`i > 0` is offset `(i-1)/2`. Iterators are positions, `len` is the `difference_type` argument.
`sprout::move` is modelled as a copy (a moved-from slot is always overwritten before it is read).
-/

namespace Sprout
variable {α : Type}

/-- `if (c == len || comp(*cp, *(cp - 1))) { --c; --cp; }`
(sprout/algorithm/cxx14/detail/heap_tool.hpp 31-34 and 46-49) -/
def pickChild (comp : α → α → Bool) (m : List α) (first len c : Nat) : Option Nat :=
  if c = len then some (c - 1)
  else do
    let a ← rd m (first + c)
    let b ← rd m (first + c - 1)
    some (if comp a b then c - 1 else c)

/-- the `do ... while` loop of `push_heap_front` followed by `*pp = move(t)` (heap_tool.hpp 37-51) -/
def siftDownLoop (comp : α → α → Bool) (m : List α) (first len : Nat) (t : α) (p c : Nat) : Option (List α) := do
  let y ← rd m (first + c)
  let m ← wr m (first + p) y
  if len < (c + 1) * 2 then wr m (first + c) t
  else do
    let c' ← pickChild comp m first len ((c + 1) * 2)
    let z ← rd m (first + c')
    if comp t z then siftDownLoop comp m first len t c c'
    else wr m (first + c) t
partial_fixpoint

/-- `sprout::detail::push_heap_front` (heap_tool.hpp 17-54) -/
def pushHeapFront (comp : α → α → Bool) (m : List α) (first len : Nat) : Option (List α) :=
  if 1 < len then do
    let c ← pickChild comp m first len 2
    let x ← rd m first
    let y ← rd m (first + c)
    if comp x y then siftDownLoop comp m first len x 0 c
    else some m
  else some m

/-- the loop of `push_heap_back` followed by `*last = move(t)` (heap_tool.hpp 68-77); `hole` is `last` -/
def siftUpLoop (comp : α → α → Bool) (m : List α) (first : Nat) (t : α) (len hole : Nat) : Option (List α) := do
  let x ← rd m (first + len)
  let m ← wr m hole x
  if len = 0 then wr m (first + len) t
  else do
    let x' ← rd m (first + (len - 1) / 2)
    if comp x' t then siftUpLoop comp m first t ((len - 1) / 2) (first + len)
    else wr m (first + len) t
partial_fixpoint

/-- `sprout::detail::push_heap_back` (heap_tool.hpp 55-80) -/
def pushHeapBack (comp : α → α → Bool) (m : List α) (first last len : Nat) : Option (List α) :=
  if 1 < len then do
    let x ← rd m (first + (len - 2) / 2)
    if last = 0 then none
    else do
      let t ← rd m (last - 1)
      if comp x t then siftUpLoop comp m first t ((len - 2) / 2) (last - 1)
      else some m
  else some m

/-- `sprout::push_heap` (push_heap.hpp 21-26) -/
def pushHeap (comp : α → α → Bool) (m : List α) (first last : Nat) : Option (List α) :=
  pushHeapBack comp m first last (last - first)

/-- the `for` loop of `detail::make_heap` (make_heap.hpp 27-29): on entry to the body `last` is
`first + i`, it is incremented before the call, but the length passed is `i` (not `i + 1`). -/
def makeHeapLoop (comp : α → α → Bool) (m : List α) (first len i : Nat) : Option (List α) :=
  if i < len then do
    let m ← pushHeapBack comp m first (first + i + 1) i
    makeHeapLoop comp m first len (i + 1)
  else some m
partial_fixpoint

/-- `sprout::make_heap` (make_heap.hpp 19-41) -/
def makeHeap (comp : α → α → Bool) (m : List α) (first last : Nat) : Option (List α) :=
  if 1 < last - first then makeHeapLoop comp m first (last - first) 1
  else some m

/-- `detail::pop_heap` (pop_heap.hpp 20-31) -/
def popHeapLen (comp : α → α → Bool) (m : List α) (first last len : Nat) : Option (List α) :=
  if 1 < len then do
    let m ← swp m first (last - 1)
    pushHeapFront comp m first (len - 1)
  else some m

/-- `sprout::pop_heap` (pop_heap.hpp 36-41) -/
def popHeap (comp : α → α → Bool) (m : List α) (first last : Nat) : Option (List α) :=
  popHeapLen comp m first last (last - first)

/-- `detail::sort_heap` (sort_heap.hpp 19-27): `for (len = last - first; len > 1; --last, --len)` -/
def sortHeapLoop (comp : α → α → Bool) (m : List α) (first last len : Nat) : Option (List α) :=
  if 1 < len then do
    let m ← popHeapLen comp m first last len
    sortHeapLoop comp m first (last - 1) (len - 1)
  else some m
partial_fixpoint

/-- `sprout::sort_heap` (sort_heap.hpp 32-37) -/
def sortHeap (comp : α → α → Bool) (m : List α) (first last : Nat) : Option (List α) :=
  sortHeapLoop comp m first last (last - first)

/-- the middle loop of `detail::partial_sort` (partial_sort.hpp 28-33) -/
def partialSortLoop (comp : α → α → Bool) (m : List α) (first len i last : Nat) : Option (List α) :=
  if i = last then some m
  else do
    let x ← rd m i
    let y ← rd m first
    if comp x y then do
      let m ← swp m i first
      let m ← pushHeapFront comp m first len
      partialSortLoop comp m first len (i + 1) last
    else partialSortLoop comp m first len (i + 1) last
partial_fixpoint

/-- `sprout::partial_sort` (partial_sort.hpp 22-45) -/
def partialSort (comp : α → α → Bool) (m : List α) (first middle last : Nat) : Option (List α) := do
  let m ← makeHeap comp m first middle
  let m ← partialSortLoop comp m first (middle - first) middle last
  sortHeap comp m first middle

/-- first loop of `detail::partial_sort_copy` (partial_sort_copy.hpp 28-30); the source is a list,
result: block, remaining source, `r` -/
def partialSortCopyFill (m : List α) (r rlast : Nat) : List α → Option (List α × List α × Nat)
  | [] => some (m, [], r)
  | x :: xs =>
    if r = rlast then some (m, x :: xs, r)
    else do
      let m ← wr m r x
      partialSortCopyFill m (r + 1) rlast xs

/-- second loop of `detail::partial_sort_copy` (partial_sort_copy.hpp 32-37) -/
def partialSortCopyRest (comp : α → α → Bool) (m : List α) (rfirst len : Nat) : List α → Option (List α)
  | [] => some m
  | x :: xs => do
    let y ← rd m rfirst
    if comp x y then do
      let m ← wr m rfirst x
      let m ← pushHeapFront comp m rfirst len
      partialSortCopyRest comp m rfirst len xs
    else partialSortCopyRest comp m rfirst len xs

/-- The body of `detail::partial_sort_copy` (partial_sort_copy.hpp 21-41), source range as a list.
(The public wrapper, line 50, passes `compare_ref` as the first explicit template argument, which is
`InputIterator`, so instantiating it is ill-formed; what is modelled is the body.) -/
def partialSortCopy (comp : α → α → Bool) (m : List α) (src : List α) (rfirst rlast : Nat) : Option (List α × Nat) :=
  if rfirst = rlast then some (m, rfirst)
  else do
    let (m, rest, r) ← partialSortCopyFill m rfirst rlast src
    let m ← makeHeap comp m rfirst r
    let m ← partialSortCopyRest comp m rfirst (r - rfirst) rest
    let m ← sortHeap comp m rfirst r
    some (m, r)

end Sprout
