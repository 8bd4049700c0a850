import Verif.Model.Adaptor

/-!
# Insert iterators: `sprout/iterator/insert_iterator.hpp`, `front_insert_iterator.hpp`, `back_insert_iterator.hpp`

The container is one with `insert`, `push_front` and `push_back`, as those of the standard library. `none` is undefined behaviour. Simplification: the
copies made by `remake` hold as many elements as needed.
-/

namespace Sprout.InsertIter
open Sprout.Adaptor

variable {α : Type}

/-- what an insertion does to iterators: in a list of nodes they go on to point to their elements, in a vector they become invalid -/
inductive Kind
  | nodes
  | vector

/-- the container and the member `iter`; `none` is an invalid iterator -/
abbrev State (α : Type) := List α × Option Nat

/-- `container->insert(iter, value)`: the elements, and the iterator `iter` afterwards; the iterator returned is the position itself -/
def insertAt (k : Kind) (c : List α) (i : Nat) (v : α) : List α × Option Nat :=
  (c.take i ++ v :: c.drop i, match k with
    | .nodes => some (i + 1)
    | .vector => none)

/-- `insert_iterator::operator=` (insert_iterator.hpp 66-73): the returned iterator is not stored -/
def assign (k : Kind) (s : State α) (v : α) : Option (State α) := do
  let i ← s.2
  if i ≤ s.1.length then some (insertAt k s.1 i v) else none

/-- `*it++ = v` for all values; `operator*` and `operator++` do nothing (insert_iterator.hpp 77-85) -/
def assignAll (k : Kind) (s : State α) : List α → Option (State α)
  | [] => some s
  | v :: l => do
    let s ← assign k s v
    assignAll k s l

/-- `front_insert_iterator::operator=` (front_insert_iterator.hpp 59-66) for all values -/
def frontAll (c : List α) : List α → List α
  | [] => c
  | v :: l => frontAll (v :: c) l

/-- `back_insert_iterator::operator=` (back_insert_iterator.hpp 59-66) for all values -/
def backAll (c : List α) : List α → List α
  | [] => c
  | v :: l => backAll (c ++ [v]) l

/-- the elements of a range of `insert_range_iterator`s from `s` to the end; the first argument bounds the number of steps -/
def collect (xs ys : List α) (pos : Nat) : Nat → Nat × Nat → Option (List α)
  | 0, s => if irEq s (xs.length, ys.length) then some [] else none
  | n + 1, s => if irEq s (xs.length, ys.length) then some [] else do
    let a ← irDeref xs ys pos s
    let s ← irNext xs ys pos s
    let l ← collect xs ys pos n s
    some (a :: l)

/-- `container_construct_traits<insert_iterator>::remake` (insert_iterator.hpp 131-144, 156-160), with as many steps as there are elements -/
def remake (xs : List α) (pos : Nat) (ys : List α) : Option (List α) := collect xs ys pos (xs.length + ys.length) (0, 0)

/-- of `front_insert_iterator` (front_insert_iterator.hpp 120-133, 145-149) -/
def remakeFront (xs ys : List α) : Option (List α) := remake xs 0 ys

/-- of `back_insert_iterator` (back_insert_iterator.hpp 120-133, 145-149) -/
def remakeBack (xs ys : List α) : Option (List α) := remake xs xs.length ys

/-- `container_fitness_traits::fit_size` (insert_iterator.hpp 169-173, front_insert_iterator.hpp 158-162, back_insert_iterator.hpp 158-162) -/
def fitSize (c : List α) (size : Nat) : Nat := size + c.length

end Sprout.InsertIter
