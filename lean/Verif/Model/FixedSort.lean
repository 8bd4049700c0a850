import Verif.Model.FixedAlg

/-!
# Sorting algorithms that return containers

sprout/algorithm/fixed: heaps, partial_sort, nth_element, stable_sort. The positions `offset + n` count from `internal_begin`;
the children `l` and `r` of `n`, which the code passes along, are always `n * 2 + 1` and `n * 2 + 2`.
-/

namespace Sprout.FixedAlg

open ContOp

variable {α : Type} [Inhabited α]

/-- the elements of the range from `begin(cont)` to `end(cont)` -/
def elems (c : Cont α) : Option (List α) := pack c.size.toNat fun i => beginAt c i

/-- `swap_element` (swap_element.hpp 21-33); the positions count from `begin` -/
def swapElement (c : Cont α) (p q : Int) : Option (Cont α) := do
  let xs ← elems c
  swapElementCopyRa xs p q c

/-- `swap_element` of positions counted from `internal_begin` -/
def swapInternal (c : Cont α) (i j : Int) : Option (Cont α) := swapElement c (i - c.beginOff) (j - c.beginOff)

/-- `comp(*next(internal_begin(cont), i), *next(internal_begin(cont), j))` -/
def compAt (comp : α → α → Bool) (c : Cont α) (i j : Int) : Option Bool := do
  let x ← internalAt c i
  let y ← internalAt c j
  some (comp x y)

/-! ## heaps -/

/-- `make_heap_impl`, `make_heap_impl_1` (make_heap.hpp 142-220) -/
def makeHeapImpl (comp : α → α → Bool) (offset : Int) (size : Nat) (n : Nat) (c : Cont α) : Option (Cont α) :=
  if n * 2 + 2 > size then some c
  else if n * 2 + 2 = size then do
    if ← compAt comp c (offset + n) (offset + (n * 2 + 1 : Nat)) then swapInternal c (offset + n) (offset + (n * 2 + 1 : Nat)) else some c
  else do
    let c ← makeHeapImpl comp offset size (n * 2 + 1) c
    let c ← makeHeapImpl comp offset size (n * 2 + 2) c
    if ← compAt comp c (offset + (n * 2 + 1 : Nat)) (offset + (n * 2 + 2 : Nat)) then
      if ← compAt comp c (offset + n) (offset + (n * 2 + 2 : Nat)) then do
        let c ← swapInternal c (offset + n) (offset + (n * 2 + 2 : Nat))
        makeHeapImpl comp offset size (n * 2 + 2) c
      else some c
    else if ← compAt comp c (offset + n) (offset + (n * 2 + 1 : Nat)) then do
      let c ← swapInternal c (offset + n) (offset + (n * 2 + 1 : Nat))
      makeHeapImpl comp offset size (n * 2 + 1) c
    else some c
  termination_by size - n

/-- `make_heap` (make_heap.hpp 227-243) -/
def makeHeap (comp : α → α → Bool) (c : Cont α) : Option (Cont α) := makeHeapImpl comp c.beginOff c.size.toNat 0 c

/-- `push_heap_impl` (push_heap.hpp 20-46) -/
def pushHeapImpl (comp : α → α → Bool) (offset : Int) (n : Nat) (c : Cont α) : Option (Cont α) :=
  if h : n = 0 then some c
  else do
    if ← compAt comp c (offset + ((n - 1) / 2 : Nat)) (offset + n) then do
      let c ← swapInternal c (offset + ((n - 1) / 2 : Nat)) (offset + n)
      pushHeapImpl comp offset ((n - 1) / 2) c
    else some c
  termination_by n
  decreasing_by omega

/-- `push_heap` (push_heap.hpp 51-67); of an empty container, before whose beginning it reads, nothing is said -/
def pushHeap (comp : α → α → Bool) (c : Cont α) : Option (Cont α) :=
  if c.size ≤ 0 then none else pushHeapImpl comp c.beginOff (c.size.toNat - 1) c

/-- `pop_heap_impl` (pop_heap.hpp 21-69) -/
def popHeapImpl (comp : α → α → Bool) (offset : Int) (size : Nat) (n : Nat) (c : Cont α) : Option (Cont α) := do
  if ← (if n * 2 + 2 < size then compAt comp c (offset + (n * 2 + 1 : Nat)) (offset + (n * 2 + 2 : Nat)) else some false) then
    if n * 2 + 2 < size then
      if ← compAt comp c (offset + n) (offset + (n * 2 + 2 : Nat)) then do
        let c ← swapInternal c (offset + n) (offset + (n * 2 + 2 : Nat))
        popHeapImpl comp offset size (n * 2 + 2) c
      else some c
    else none
  else if n * 2 + 1 < size then
    if ← compAt comp c (offset + n) (offset + (n * 2 + 1 : Nat)) then do
      let c ← swapInternal c (offset + n) (offset + (n * 2 + 1 : Nat))
      popHeapImpl comp offset size (n * 2 + 1) c
    else some c
  else some c
  termination_by size - n

/-- `pop_heap` (pop_heap.hpp 74-92) -/
def popHeap (comp : α → α → Bool) (c : Cont α) : Option (Cont α) :=
  if c.size ≤ 0 then none
  else do
    let d ← swapElement c 0 (c.size - 1)
    popHeapImpl comp c.beginOff (c.size.toNat - 1) 0 d

/-- `sort_heap_impl` (sort_heap.hpp 21-45) -/
def sortHeapImpl (comp : α → α → Bool) (offset : Int) : Nat → Cont α → Option (Cont α)
  | 0, c => some c
  | 1, c => some c
  | size + 2, c => do
    let c ← swapElement c 0 (size + 1 : Nat)
    let c ← popHeapImpl comp offset (size + 1) 0 c
    sortHeapImpl comp offset (size + 1) c

/-- `sort_heap` (sort_heap.hpp 50-66) -/
def sortHeap (comp : α → α → Bool) (c : Cont α) : Option (Cont α) := sortHeapImpl comp c.beginOff c.size.toNat c

/-- `make_partial_heap_impl_1` (make_partial_heap.hpp 22-52) -/
def makePartialHeapImpl1 (comp : α → α → Bool) (offset : Int) (size middle : Nat) (n : Nat) (c : Cont α) : Option (Cont α) :=
  if n < size then do
    if ← compAt comp c (offset + n) offset then do
      let c ← swapInternal c (offset + n) offset
      let c ← popHeapImpl comp offset middle 0 c
      makePartialHeapImpl1 comp offset size middle (n + 1) c
    else makePartialHeapImpl1 comp offset size middle (n + 1) c
  else some c
  termination_by size - n

/-- `make_partial_heap_impl` (make_partial_heap.hpp 53-67) -/
def makePartialHeapImpl (comp : α → α → Bool) (offset : Int) (size middle : Nat) (c : Cont α) : Option (Cont α) := do
  let c ← makeHeapImpl comp offset middle 0 c
  makePartialHeapImpl1 comp offset size middle middle c

/-- `make_partial_heap` (make_partial_heap.hpp 72-93); `m` is the position of `middle` -/
def makePartialHeap (comp : α → α → Bool) (m : Nat) (c : Cont α) : Option (Cont α) :=
  makePartialHeapImpl comp c.beginOff c.size.toNat m c

/-- `partial_sort` (partial_sort.hpp 21-60) -/
def partialSort (comp : α → α → Bool) (m : Nat) (c : Cont α) : Option (Cont α) := do
  let d ← makePartialHeapImpl comp c.beginOff c.size.toNat m c
  sortHeapImpl comp c.beginOff m d

/-- `nth_element` (nth_element.hpp 20-75); `m` is the position of `nth` -/
def nthElement (comp : α → α → Bool) (m : Nat) (c : Cont α) : Option (Cont α) := do
  let d ← makePartialHeapImpl comp c.beginOff c.size.toNat (m + 1) c
  swapInternal d c.beginOff (c.beginOff + m)

/-! ## stable_sort -/

/-- `stable_sort_impl_synonym` (stable_sort.hpp 30-76) up to its end: the values equivalent to `value` are put at the end -/
def sortSynonym (static : Nat) (comp : α → α → Bool) (value : α) : List α → Nat → List α → List α
  | [], _, args => args
  | x :: xs, count, args =>
    if static = args.length then args
    else if count ≠ 0 then
      if !comp x value && !comp value x then sortSynonym static comp value xs (count - 1) (args ++ [x])
      else sortSynonym static comp value xs count args
    else args

/-- `stable_sort_impl_restart_1` (stable_sort.hpp 77-117) up to its end: the next value, how often it is there, and the position
of the first of them; `pos` is the position of `first` -/
def sortNext (comp : α → α → Bool) (prev : α) : List α → Nat → α → Nat → Nat → α × Nat × Nat
  | [], _, value, count, current => (value, count, current)
  | x :: xs, pos, value, count, current =>
    if comp prev x then
      if count = 0 || comp x value then sortNext comp prev xs (pos + 1) x 1 pos
      else if comp value x then sortNext comp prev xs (pos + 1) value count current
      else sortNext comp prev xs (pos + 1) value (count + 1) current
    else sortNext comp prev xs (pos + 1) value count current

/-- `stable_sort_impl_1` (stable_sort.hpp 142-176) up to its end -/
def sortFirst (comp : α → α → Bool) : List α → Nat → α → Nat → Nat → α × Nat × Nat
  | [], _, value, count, current => (value, count, current)
  | x :: xs, pos, value, count, current =>
    if comp x value then sortFirst comp xs (pos + 1) x 1 pos
    else if comp value x then sortFirst comp xs (pos + 1) value count current
    else sortFirst comp xs (pos + 1) value (count + 1) current

omit [Inhabited α] in
theorem length_sortSynonym (static : Nat) (comp : α → α → Bool) (value : α) : ∀ (xs : List α) (count : Nat) (args : List α),
    args.length ≤ (sortSynonym static comp value xs count args).length
  | [], _, _ => Nat.le_refl _
  | x :: xs, count, args => by
    rw [sortSynonym]
    split
    · exact Nat.le_refl _
    · split
      · split
        · exact Nat.le_trans (by simp) (length_sortSynonym static comp value xs (count - 1) (args ++ [x]))
        · exact length_sortSynonym static comp value xs count args
      · exact Nat.le_refl _

/-- the values after `stable_sort_impl_synonym`, called with what was found (stable_sort.hpp 111-114, 170-173); `count - 1` is of
type `size_type` -/
def sortArgs (static : Nat) (comp : α → α → Bool) (xs : List α) (found : α × Nat × Nat) (args : List α) : List α :=
  sortSynonym static comp found.1 (xs.drop (found.2.2 + 1)) (if found.2.1 = 0 then 2 ^ 64 - 1 else found.2.1 - 1) (args ++ [found.1])

omit [Inhabited α] in
theorem length_sortArgs (static : Nat) (comp : α → α → Bool) (xs : List α) (found : α × Nat × Nat) (args : List α) :
    args.length < (sortArgs static comp xs found args).length := by
  have := length_sortSynonym static comp found.1 (xs.drop (found.2.2 + 1)) (if found.2.1 = 0 then 2 ^ 64 - 1 else found.2.1 - 1) (args ++ [found.1])
  simp only [List.length_append, List.length_singleton] at this
  exact this

/-- `stable_sort_impl_synonym`, `stable_sort_impl_restart` (stable_sort.hpp 30-76, 118-141) -/
def sortLoop (c : Cont α) (comp : α → α → Bool) (xs : List α) (found : α × Nat × Nat) (args : List α) : Option (Cont α) :=
  if c.static = (sortArgs c.static comp xs found args).length then some (remake c c c.size (sortArgs c.static comp xs found args))
  else if (sortArgs c.static comp xs found args).length < c.size.toNat then
    match xs.head? with
    | none => none
    | some x => sortLoop c comp xs (sortNext comp found.1 xs 0 x 0 0) (sortArgs c.static comp xs found args)
  else complate c (sortArgs c.static comp xs found args)
  termination_by c.size.toNat - args.length
  decreasing_by
    have := length_sortArgs c.static comp xs found args
    omega

/-- `stable_sort` (stable_sort.hpp 177-229), `sort` (sort.hpp 21-29); with `static_size` greater than 1 an empty range is walked
past its end -/
def stableSort (comp : α → α → Bool) (c : Cont α) : Option (Cont α) :=
  if c.static ≤ 1 then some c
  else do
    let xs ← elems c
    match xs with
    | [] => none
    | x :: rest => sortLoop c comp xs (sortFirst comp rest 1 x 1 0) []

end Sprout.FixedAlg
