import Verif.Model.FixedSort
import Verif.Model.Merge

/-!
# Merging, set operations and permutations that return containers

sprout/algorithm/fixed: merge, inplace_merge, set_union, set_intersection, set_difference, set_symmetric_difference,
next_permutation, prev_permutation.
-/

namespace Sprout.FixedAlg

open ContOp

variable {α : Type} [Inhabited α]

/-! ## merging -/

/-- `args..., x` when an element is put there, else `args...` -/
def emitArg (e : Bool) (args : List α) (x : α) : List α := if e then args ++ [x] else args

/-- The common shape of `merge_impl`, `set_union_impl`, `set_intersection_impl`, `set_difference_impl` and
`set_symmetric_difference_impl` (merge.hpp 27-79, set_union.hpp 27-84, set_intersection.hpp 27-76, set_difference.hpp 27-79,
set_symmetric_difference.hpp 27-84). `dec` is the choice when both ranges have elements, `k1`/`k2` whether the elements of the
first/second range alone are taken. -/
def mergeImpl (c : Cont α) (dec : α → α → Act) (k1 k2 : Bool) (xs ys args : List α) : Option (Cont α) :=
  if c.static = args.length then some (remake c c c.size args)
  else if args.length < c.size.toNat then
    match xs, ys with
    | x :: xs, y :: ys =>
      match dec x y with
      | .left e => mergeImpl c dec k1 k2 xs (y :: ys) (emitArg e args x)
      | .right e => mergeImpl c dec k1 k2 (x :: xs) ys (emitArg e args y)
      | .both e => mergeImpl c dec k1 k2 xs ys (emitArg e args x)
    | x :: xs, [] => if k1 then mergeImpl c dec k1 k2 xs [] (args ++ [x]) else complate c args
    | [], y :: ys => if k2 then mergeImpl c dec k1 k2 [] ys (args ++ [y]) else complate c args
    | [], [] => complate c args
  else complate c args
  termination_by xs.length + ys.length

/-- `merge` (merge.hpp 58-70, 84-99) -/
def mergeTo (comp : α → α → Bool) (xs ys : List α) (c : Cont α) : Option (Cont α) :=
  mergeImpl c (fun x y => if comp y x then .right true else .left true) true true xs ys []

/-- `inplace_merge` (inplace_merge.hpp 22-43); `m` is the position of `middle` -/
def inplaceMergeTo (comp : α → α → Bool) (m : Nat) (c : Cont α) : Option (Cont α) := do
  let l ← elems c
  if m ≤ l.length then mergeTo comp (l.take m) (l.drop m) c else none

/-- `set_union` (set_union.hpp 57-82, 87-102) -/
def setUnionTo (comp : α → α → Bool) (xs ys : List α) (c : Cont α) : Option (Cont α) :=
  mergeImpl c (fun x y => if comp x y then .left true else if comp y x then .right true else .both true) true true xs ys []

/-- `set_intersection` (set_intersection.hpp 57-74, 79-94) -/
def setIntersectionTo (comp : α → α → Bool) (xs ys : List α) (c : Cont α) : Option (Cont α) :=
  mergeImpl c (fun x y => if comp x y then .left false else if comp y x then .right false else .both true) false false xs ys []

/-- `set_difference` (set_difference.hpp 57-77, 82-97) -/
def setDifferenceTo (comp : α → α → Bool) (xs ys : List α) (c : Cont α) : Option (Cont α) :=
  mergeImpl c (fun x y => if comp x y then .left true else if comp y x then .right false else .both false) true false xs ys []

/-- `set_symmetric_difference` (set_symmetric_difference.hpp 57-82, 87-102) -/
def setSymmetricDifferenceTo (comp : α → α → Bool) (xs ys : List α) (c : Cont α) : Option (Cont α) :=
  mergeImpl c (fun x y => if comp x y then .left true else if comp y x then .right true else .both false) true true xs ys []

/-! ## permutations

`cmp i j` is the test `comp(*i, *j)` (next) or `comp(*j, *i)` (prev). -/

/-- `next_permutation_impl_4` (next_permutation.hpp 32-43, the branch of newer compilers): the elements from `d` on are reversed -/
def permImpl4 (c : Cont α) (d : Nat) : Option (Cont α) := do
  let l ← elems c
  copyBackwardRa (l.drop d).reverse c

/-- `next_permutation_impl_3` (next_permutation.hpp 44-61) up to the call of `swap_element`: the position `prev(j)` -/
def permImpl3 (cmp : Nat → Nat → Option Bool) (i : Nat) : Nat → Option Nat
  | 0 => none
  | j + 1 => do
    if !(← cmp i j) then permImpl3 cmp i j else some j

/-- `next_permutation_impl_2` (next_permutation.hpp 62-80); `ii` is always `next(i)` -/
def permImpl2 (c : Cont α) (cmp : Nat → Nat → Option Bool) (last : Nat) (i : Nat) : Option (Cont α × Bool) := do
  if ← cmp i (i + 1) then do
    let j ← permImpl3 cmp i last
    let d ← swapElement c i j
    let d ← permImpl4 d (i + 1)
    some (d, true)
  else if h : i = 0 then do
    let l ← elems c
    let d ← reverseCopyRa l c
    some (d, false)
  else permImpl2 c cmp last (i - 1)
  termination_by i
  decreasing_by omega

/-- `next_permutation_impl`, `next_permutation_impl_1` (next_permutation.hpp 81-104) -/
def permImpl (c : Cont α) (cmp : List α → Nat → Nat → Option Bool) : Option (Cont α × Bool) := do
  let l ← elems c
  if l.length = 0 then some (c, false)
  else if l.length = 1 then some (c, false)
  else permImpl2 c (cmp l) l.length (l.length - 2)

/-- `next_permutation` (next_permutation.hpp 109-127) -/
def nextPermutationTo (comp : α → α → Bool) (c : Cont α) : Option (Cont α × Bool) := permImpl c fun l i j => cmpAt comp l i j

/-- `prev_permutation` (prev_permutation.hpp 44-130) -/
def prevPermutationTo (comp : α → α → Bool) (c : Cont α) : Option (Cont α × Bool) := permImpl c fun l i j => cmpAt comp l j i

end Sprout.FixedAlg
