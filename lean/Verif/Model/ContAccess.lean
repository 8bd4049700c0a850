/-!
# Access to the elements of containers

`sprout/container/front.hpp`, `back.hpp`, `subscript_at.hpp`, `at.hpp`, `size.hpp`, `range_index_check.hpp` and
`sprout/container/detail/range_*.hpp`, for containers that are not arrays of the language and for which the traits are not
specialised.

Simplifications: the members of the container do what their names say (`back()` is the last element, `at(i)` throws, and so on);
`begin` stands for the member and for the function that is found by argument dependent lookup, and comes with `end`; the value behind
a reference is modelled, not the reference.
-/

namespace Sprout.ContAccess

variable {α : Type}

/-- for which containers a member can be called -/
inductive Mem
  | absent | mutableOnly | both
deriving DecidableEq

/-- the member can be called; `k` says whether the container is const -/
def Mem.callable (m : Mem) (k : Bool) : Bool :=
  match m with
  | .absent => false
  | .mutableOnly => !k
  | .both => true

/-- a container with its elements and its members -/
structure Cont (α : Type) where
  elems : List α
  begin : Mem
  size : Mem
  front : Mem
  back : Mem
  subscript : Mem
  atMem : Mem
  /-- `is_const_reference_cast_convertible<const_reference, reference>` (const_reference_cast.hpp 24-30) -/
  castable : Bool

/-- the outcomes of a call -/
inductive Out (α : Type)
  | val (a : α)
  | ub
  | throws
  | illFormed
deriving DecidableEq

/-- the element at a position -/
def Out.ofElem : Option α → Out α
  | some a => .val a
  | none => .ub

/-- `sprout::size` (container/detail/range_size.hpp 50-65): its parameter is const; `none` if it is ill-formed -/
def rangeSize (c : Cont α) : Option Nat :=
  if c.size.callable true then some c.elems.length
  else if c.begin.callable true then some c.elems.length else none

/-- `*sprout::next(sprout::begin(cont), i)` -/
def nextBegin (c : Cont α) (k : Bool) (i : Nat) : Out α :=
  if c.begin.callable k then .ofElem c.elems[i]? else .illFormed

/-- `*sprout::next(sprout::begin(cont), sprout::size(cont) - 1)`; the number wraps around for an empty container -/
def nextBeginLast (c : Cont α) (k : Bool) : Out α :=
  match rangeSize c with
  | none => .illFormed
  | some 0 => if c.begin.callable k then .ub else .illFormed
  | some (n + 1) => nextBegin c k n

/-- `range_front_impl(Container const&)` (container/detail/range_front.hpp 96-111) -/
def frontConst (c : Cont α) : Out α :=
  if c.front.callable true then .ofElem c.elems[0]? else nextBegin c true 0

/-- `range_front_impl(Container&)` (container/detail/range_front.hpp 67-95) with `is_substitutable_const_front` (52-65) -/
def frontMut (c : Cont α) : Out α :=
  if c.castable && (c.front.callable true || c.begin.callable true) then frontConst c
  else if c.front.callable false then .ofElem c.elems[0]?
  else nextBegin c false 0

/-- `range_back_impl(Container const&)` (container/detail/range_back.hpp 96-111) -/
def backConst (c : Cont α) : Out α :=
  if c.back.callable true then .ofElem c.elems.getLast? else nextBeginLast c true

/-- `range_back_impl(Container&)` (container/detail/range_back.hpp 67-95) with `is_substitutable_const_back` (52-65): the last case
is `*sprout::begin(cont)` (94) -/
def backMut (c : Cont α) : Out α :=
  if c.castable && (c.back.callable true || c.begin.callable true) then backConst c
  else if c.back.callable false then .ofElem c.elems.getLast?
  else nextBegin c false 0

/-- `range_subscript_at_impl(Container const&)` (container/detail/range_subscript_at.hpp 96-111) -/
def subConst (c : Cont α) (i : Nat) : Out α :=
  if c.subscript.callable true then .ofElem c.elems[i]? else nextBegin c true i

/-- `range_subscript_at_impl(Container&)` (container/detail/range_subscript_at.hpp 67-95) -/
def subMut (c : Cont α) (i : Nat) : Out α :=
  if c.castable && (c.subscript.callable true || c.begin.callable true) then subConst c i
  else if c.subscript.callable false then .ofElem c.elems[i]?
  else nextBegin c false i

/-- whether the call is well-formed -/
def Out.wf : Out α → Bool
  | .illFormed => false
  | _ => true

/-- an access after `sprout::range_index_check` (container/range_index_check.hpp 20-26) -/
def checked (c : Cont α) (i : Nat) (r : Out α) : Out α :=
  match rangeSize c with
  | none => .illFormed
  | some n => if r.wf then (if i < n then r else .throws) else .illFormed

/-- the member `at` -/
def memAt (c : Cont α) (i : Nat) : Out α :=
  match c.elems[i]? with
  | some a => .val a
  | none => .throws

/-- `cont[i]` -/
def memSub (c : Cont α) (k : Bool) (i : Nat) : Out α :=
  if c.subscript.callable k then .ofElem c.elems[i]? else .illFormed

/-- `range_at_impl(Container const&)` (container/detail/range_at.hpp 110-137): the second and the third case ask for the subscript of
`Container`, not of `Container const` (121, 131) -/
def atConst (c : Cont α) (i : Nat) : Out α :=
  if c.atMem.callable true then memAt c i
  else if c.subscript.callable false then checked c i (memSub c true i)
  else checked c i (nextBegin c true i)

/-- `range_at_impl(Container&)` (container/detail/range_at.hpp 69-109) with `is_substitutable_const_at` (53-67) -/
def atMut (c : Cont α) (i : Nat) : Out α :=
  if c.castable && (c.atMem.callable true || c.subscript.callable true || c.begin.callable true) then atConst c i
  else if c.atMem.callable false then memAt c i
  else if c.subscript.callable false then checked c i (memSub c false i)
  else checked c i (nextBegin c false i)

/-- the functions for const and for mutable containers -/
def frontOf (c : Cont α) (k : Bool) : Out α := if k then frontConst c else frontMut c
def backOf (c : Cont α) (k : Bool) : Out α := if k then backConst c else backMut c
def subscriptAt (c : Cont α) (k : Bool) (i : Nat) : Out α := if k then subConst c i else subMut c i
def atOf (c : Cont α) (k : Bool) (i : Nat) : Out α := if k then atConst c i else atMut c i

end Sprout.ContAccess
