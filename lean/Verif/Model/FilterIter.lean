import Verif.Model.Find
import Verif.Model.SetIter
import Verif.Model.Adaptor

/-!
# filter_iterator, adjacent_filter_iterator, while_iterator

The range is the block `xs`; the state is the member `current`; `last` is the end of the block. `find_if` and `adjacent_find` are
taken in their form for random access iterators; both forms have the same results (C01, C05 and others).
-/

namespace Sprout.FilterIter
open Adaptor
variable {α : Type}

/-- the constructor: `find_next` (iterator/filter_iterator.hpp 53-55, 84-88) -/
def filterMake (p : α → Bool) (xs : List α) (it : Nat) : Option Nat := findIfRa xs it xs.length p
/-- `next`, `operator++` (iterator/filter_iterator.hpp 66-68, 117-121, 139-141) -/
def filterNext (p : α → Bool) (xs : List α) (c : Nat) : Option Nat := do
  let q ← padd xs.length c 1
  findIfRa xs q xs.length p
/-- `find_prev`, `satisfy_predicate_backward` (iterator/filter_iterator.hpp 56-60, 69-73; iterator/while_iterator.hpp 60-64, 75-79) -/
def findPrev (p : α → Bool) (xs : List α) (c : Nat) : Option Nat := do
  let x ← rd xs c
  if p x then some c
  else do
    let q ← padd xs.length c (-1)
    findPrev p xs q
partial_fixpoint
/-- `prev`, `operator--` (iterator/filter_iterator.hpp 128-132, 142-144; iterator/while_iterator.hpp 134-138, 148-150) -/
def filterPrev (p : α → Bool) (xs : List α) (c : Nat) : Option Nat := do
  let q ← padd xs.length c (-1)
  findPrev p xs q

/-- the constructor: `find_next` (iterator/adjacent_filter_iterator.hpp 52-54, 78-82) -/
def adjMake (p : α → α → Bool) (xs : List α) (it : Nat) : Option Nat := adjacentFindRa xs it xs.length p
/-- `next`, `operator++`, with `checked_next` (iterator/adjacent_filter_iterator.hpp 55-59, 111-117, 126-128) -/
def adjNext (p : α → α → Bool) (xs : List α) (c : Nat) : Option Nat := do
  let f ← adjacentFindRa xs c xs.length p
  if f = xs.length then some f else padd xs.length f 1

/-- the constructor: `find_next` (iterator/while_iterator.hpp 55-59, 90-94) -/
def whileMake (p : α → Bool) (xs : List α) (it : Nat) : Option Nat :=
  if it = xs.length then some it
  else do
    let x ← rd xs it
    some (if p x then it else xs.length)
/-- `next` (iterator/while_iterator.hpp 145-147) -/
def whileNext (p : α → Bool) (xs : List α) (c : Nat) : Option Nat := do
  let q ← padd xs.length c 1
  whileMake p xs q
/-- `operator++` with `satisfy_predicate` (iterator/while_iterator.hpp 70-74, 123-127) -/
def whileIncr (p : α → Bool) (xs : List α) (c : Nat) : Option Nat := do
  let q ← padd xs.length c 1
  let x ← rd xs q
  some (if p x then q else xs.length)

end Sprout.FilterIter
