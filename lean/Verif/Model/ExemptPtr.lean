/-!
# `exempt_ptr`: `sprout/memory/exempt_ptr.hpp`

A pointer is null or points into an array. `none` is an ill-formed program, undefined behaviour or an unspecified result. The conversions between
pointers to different types are not modelled.
-/

namespace Sprout.ExemptPtr

/-- a pointer to the element `i` of the array `b`, or past its last element -/
inductive Ptr
  | null
  | at (b i : Nat)
  deriving DecidableEq

/-- the arrays: the number of elements of every array and their values -/
structure Mem where
  size : Nat → Nat
  val : Nat → Nat → Int

/-- `p + d` of pointers -/
def ptrAdd (m : Mem) : Ptr → Int → Option Ptr
  | .null, d => if d = 0 then some .null else none
  | .at b i, d => if 0 ≤ (i : Int) + d ∧ (i : Int) + d ≤ m.size b then some (.at b ((i : Int) + d).toNat) else none

/-- `p - q` of pointers -/
def ptrSub : Ptr → Ptr → Option Int
  | .null, .null => some 0
  | .at b i, .at c j => if b = c then some ((i : Int) - j) else none
  | _, _ => none

/-- `*p` of pointers -/
def ptrDeref (m : Mem) : Ptr → Option Int
  | .null => none
  | .at b i => if i < m.size b then some (m.val b i) else none

/-- `p < q` of pointers, `sprout::less<T*>` (functional/less.hpp 29-31): unspecified if they do not point into the same array -/
def ptrLt : Ptr → Ptr → Option Bool
  | .null, .null => some false
  | .at b i, .at c j => if b = c then some (decide (i < j)) else none
  | _, _ => none

/-- `exempt_ptr<T>`: the member `p_` (exempt_ptr.hpp 40), `get` (93-96) -/
structure E where
  p : Ptr
  deriving DecidableEq

/-- constructors from null and from pointers, `make_exempt` (47-55, 172-176) -/
def mkNull : E := ⟨.null⟩
/-- see `mkNull` -/
def mk (p : Ptr) : E := ⟨p⟩
/-- `operator*` (97-100) -/
def deref (m : Mem) (x : E) : Option Int := ptrDeref m x.p
/-- `operator bool` (105-107) -/
def asBool (x : E) : Bool := x.p ≠ .null
/-- `reset` (117-120): the new state -/
def reset (_x : E) (t : Ptr) : E := ⟨t⟩
/-- `release` (111-116): the pointer and the new state -/
def release (x : E) : Ptr × E := (x.p, reset x .null)
/-- what a name in a member function refers to: the member functions of this name, if there are, hide all others -/
inductive Callee
  | member (params : Nat)
  | free (params : Nat)
/-- a call with `n` arguments -/
def callOk (c : Callee) (n : Nat) : Bool :=
  match c with
  | .member k => k == n
  | .free k => k == n
/-- `swap` (121-124): the call `swap(p_, other.p_)` finds the member with one parameter -/
def swapWith (c : Callee) (x y : E) : Option (E × E) := if callOk c 2 then some (⟨y.p⟩, ⟨x.p⟩) else none
/-- `swap` of the code -/
def swap (x y : E) : Option (E × E) := swapWith (.member 1) x y
/-- `operator++()`, `operator++(int)` (125-129, 135-137): the result of the second and the new state -/
def postInc (m : Mem) (x : E) : Option (E × E) := (ptrAdd m x.p 1).map fun q => (⟨x.p⟩, ⟨q⟩)
/-- `operator--()`, `operator--(int)` (130-134, 138-140) -/
def postDec (m : Mem) (x : E) : Option (E × E) := (ptrAdd m x.p (-1)).map fun q => (⟨x.p⟩, ⟨q⟩)
/-- `operator+` (144-147, 286-290) -/
def add (m : Mem) (x : E) (d : Int) : Option E := (ptrAdd m x.p d).map mk
/-- `operator-` (148-151) -/
def sub (m : Mem) (x : E) (d : Int) : Option E := (ptrAdd m x.p (-d)).map mk
/-- `operator-` (291-295) -/
def diff (x y : E) : Option Int := ptrSub x.p y.p
/-- `operator[]` (152-159): `p_[k]` is `*(p_ + k)` -/
def index (m : Mem) (x : E) (k : Int) : Option Int := (ptrAdd m x.p k).bind (ptrDeref m)
/-- `operator==` (181-185) -/
def eq (x y : E) : Bool := x.p = y.p
/-- `operator==` with null on either side (192-196, 203-207) -/
def eqNull (x : E) : Bool := !asBool x
/-- `operator<` (219-224) -/
def lt (x y : E) : Option Bool := ptrLt x.p y.p
/-- `operator>` (225-229) -/
def gt (x y : E) : Option Bool := lt y x
/-- `operator<=` (230-234) -/
def le (x y : E) : Option Bool := (lt y x).map not
/-- `operator>=` (235-239) -/
def ge (x y : E) : Option Bool := (lt x y).map not
/-- `operator<` with null on the right (241-245) -/
def ltNull (x : E) : Option Bool := ptrLt x.p .null
/-- `operator<` with null on the left (262-266) -/
def nullLt (x : E) : Option Bool := ptrLt .null x.p

end Sprout.ExemptPtr
