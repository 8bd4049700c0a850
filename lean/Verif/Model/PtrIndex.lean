import Verif.Basic

/-!
# ptr_index_iterator (sprout/iterator/ptr_index_iterator.hpp)

A pointer is a position in a block `m` of memory, from the first element to past the last; arithmetic that leaves this range is undefined
([expr.add]), and so is reading past the last element. An iterator is a pointer and an index, which is unbounded here.
-/

namespace Sprout
namespace PtrIx

variable {α : Type}

/-- the members `p_`, `index_` (47-48) -/
structure It where
  p : Nat
  index : Int
  deriving DecidableEq, Repr

/-- `p + n` for a pointer -/
def addPtr (m : List α) (p : Nat) (n : Int) : Option Nat :=
  if 0 ≤ (p : Int) + n ∧ (p : Int) + n ≤ m.length then some ((p : Int) + n).toNat else none

/-- `ptr_index_iterator(p)` (54-56), `make_ptr_index_iterator(p)` (210-214), `ptr_index(p)` (224-228) -/
def make (p : Nat) : It := ⟨p, 0⟩
/-- `ptr_index_iterator(p, index)` (57-59), `make_ptr_index_iterator(p, index)` (215-219), `ptr_index(p, n)` (229-233) -/
def make2 (p : Nat) (n : Int) : It := ⟨p, n⟩
/-- `ptr()` (69-71), `operator->` (87-89), `ptr_unindex` (249-253) -/
def ptr (m : List α) (i : It) : Option Nat := addPtr m i.p i.index
/-- `next()` (72-74), `iterator_next` (283-287) -/
def next (i : It) : It := ⟨i.p, i.index + 1⟩
/-- `prev()` (75-77), `iterator_prev` (292-296) -/
def prev (i : It) : It := ⟨i.p, i.index - 1⟩
/-- `p[n]` for a pointer: `*(p + n)` -/
def subscript (m : List α) (p : Nat) (n : Int) : Option α := do
  let q ← addPtr m p n
  m[q]?
/-- `operator*` (84-86) -/
def deref (m : List α) (i : It) : Option α := subscript m i.p i.index
/-- `operator++()` (90-94): `next` and `swap`; the new iterator -/
def inc (i : It) : It := next i
/-- `operator++(int)` (95-99): the result and the new iterator -/
def postInc (i : It) : It × It := (i, inc i)
/-- `operator--()` (100-104) -/
def decr (i : It) : It := prev i
/-- `operator--(int)` (105-109) -/
def postDec (i : It) : It × It := (i, decr i)
/-- `operator+` (110-112, 190-194), `operator+=` (116-120) -/
def add (i : It) (n : Int) : It := ⟨i.p, i.index + n⟩
/-- `operator-` (113-115), `operator-=` (121-125) -/
def sub (i : It) (n : Int) : It := ⟨i.p, i.index - n⟩
/-- `operator[]` (126-128) -/
def at_ (m : List α) (i : It) (n : Int) : Option α := subscript m i.p (i.index + n)
/-- `operator==` (131-138) -/
def eq (a b : It) : Bool := a.index == b.index
/-- `operator!=` (139-146) -/
def ne (a b : It) : Bool := !eq a b
/-- `operator<` (147-154) -/
def lt (a b : It) : Bool := decide (a.index < b.index)
/-- `operator>` (155-162) -/
def gt (a b : It) : Bool := lt b a
/-- `operator<=` (163-170) -/
def le (a b : It) : Bool := !lt b a
/-- `operator>=` (171-178) -/
def ge (a b : It) : Bool := !lt a b
/-- `operator-` (179-189) -/
def diff (a b : It) : Int := a.index - b.index

/-- types of pointees, as far as the conversion of iterators is concerned -/
inductive Ty
  | obj
  | const (t : Ty)
  | ptr (t : Ty)
  deriving DecidableEq

/-- `std::remove_pointer<pointer>::type const*` for `pointer` = `T*` (45): `const` on a const type is the type -/
def constPointer (T : Ty) : Ty :=
  match T with
  | .const t => .ptr (.const t)
  | t => .ptr (.const t)

/-- the argument of the template in the type converted to (60-62) -/
def convertTo (T : Ty) : Ty := constPointer T

/-- a conversion `ptr_index_iterator<T>` to `ptr_index_iterator<U>` constructs the latter from a `U*`; here from `p_`, a `T*`:
it is well-formed if `T*` converts to `U*` -/
def wellFormed (T U : Ty) : Bool := U == T || U == .const T

end PtrIx
end Sprout
