import Verif.Model.Exn
import Verif.Model.Lex

/-!
# sub_array

A window of an array (sprout/sub_array). The array is held by value or by reference: what is read and written is the same.
Offsets are integers (no wrapping at 64 bits); reading or writing outside the array is undefined behaviour.
-/

namespace Sprout

variable {α : Type}

/-- `sub_array` (sub_array/sub_array.hpp 144-146: `array_`, `to_first_`, `to_last_`) -/
structure SubArr (α : Type) where
  arr : List α
  f : Int
  l : Int

namespace SubArr

/-- `*next(begin(array), i)` -/
def get (a : List α) (i : Int) : Option α := if 0 ≤ i then a[i.toNat]? else none

/-- `array[i] = x` -/
def put (a : List α) (i : Int) (x : α) : Option (List α) := if 0 ≤ i ∧ i < a.length then some (a.set i.toNat x) else none

/-- `begin`, `cbegin` (sub_array.hpp 313-318, 325-327), a position in the array -/
def begin (s : SubArr α) : Int := s.f
/-- `end`, `cend` (319-324, 328-330) -/
def «end» (s : SubArr α) : Int := s.l
/-- `size` (332-334), as a difference -/
def size (s : SubArr α) : Int := s.l - s.f
/-- `empty` (338-340) -/
def empty (s : SubArr α) : Bool := s.f == s.l
/-- `operator[]` (342-347) -/
def index (s : SubArr α) (i : Nat) : Option α := get s.arr (s.f + i)
/-- `at` (348-357); the size is compared as an unsigned number of 64 bits -/
def at' (s : SubArr α) (i : Nat) : Option (Ret α) :=
  if (i : Int) < s.size % 2 ^ 64 then (get s.arr (s.f + i)).map .ret else some (.throw .outOfRange)
/-- `front` (358-363) -/
def front (s : SubArr α) : Option α := get s.arr s.f
/-- `back` (364-369) -/
def back (s : SubArr α) : Option α := get s.arr (s.l - 1)
/-- `from_end` (414-416) -/
def fromEnd (s : SubArr α) : Int := s.l - s.arr.length
/-- `nth` (453-464) -/
def nth (s : SubArr α) (i : Nat) : Ret Int := if (i : Int) < s.size % 2 ^ 64 then .ret (s.begin + i) else .throw .outOfRange
/-- `index_of` (465-470) -/
def indexOf (s : SubArr α) (p : Int) : Int := p - s.begin

/-- `window(to_first)` on a mutable object (418-422): `size()` is called after `to_first_` has been changed -/
def windowMut1 (s : SubArr α) (a : Int) : SubArr α :=
  let s := { s with f := a }
  { s with l := s.size }
/-- `window(to_first, to_last)` on a mutable object (423-427) -/
def windowMut (s : SubArr α) (a b : Int) : SubArr α := { s with f := a, l := b }
/-- `window(to_first)`, `cwindow(to_first)` on a constant object (428-430, 434-436) -/
def window1 (s : SubArr α) (a : Int) : SubArr α := ⟨s.arr, a, s.size⟩
/-- `window(to_first, to_last)`, `cwindow` (431-433, 437-439) -/
def window (s : SubArr α) (a b : Int) : SubArr α := ⟨s.arr, a, b⟩
/-- `offset` on a mutable object (441-445) -/
def offsetMut (s : SubArr α) (a b : Int) : SubArr α := { s with f := s.f + a, l := s.l + b }
/-- `offset`, `coffset` on a constant object (446-451) -/
def offset (s : SubArr α) (a b : Int) : SubArr α := ⟨s.arr, s.f + a, s.l + b⟩

/-- `fill_n(begin(), size(), value)` (301-303; algorithm/fill_n.hpp), from the position `i` on -/
def fillFrom (x : α) : Nat → Int → List α → Option (List α)
  | 0, _, a => some a
  | n + 1, i, a => do
    let a ← put a i x
    fillFrom x n (i + 1) a
/-- `fill`, `assign` (301-303, 384-386) -/
def fill (s : SubArr α) (x : α) : Option (SubArr α) := do
  let a ← fillFrom x s.size.toNat s.begin s.arr
  some { s with arr := a }
/-- `push_back` (472-479) -/
def pushBack (s : SubArr α) (x : α) : Option (SubArr α) := do
  let a ← put s.arr s.l x
  some { s with arr := a, l := s.l + 1 }
/-- `pop_back` (480-483) -/
def popBack [Inhabited α] (s : SubArr α) : Option (SubArr α) := do
  let a ← put s.arr (s.l - 1) default
  some { s with arr := a, l := s.l - 1 }
/-- `drop_back` (484-486) -/
def dropBack (s : SubArr α) : SubArr α := { s with l := s.l - 1 }
/-- `push_front` (487-494) -/
def pushFront (s : SubArr α) (x : α) : Option (SubArr α) := do
  let a ← put s.arr (s.f - 1) x
  some { s with arr := a, f := s.f - 1 }
/-- `pop_front` (495-498) -/
def popFront [Inhabited α] (s : SubArr α) : Option (SubArr α) := do
  let a ← put s.arr s.f default
  some { s with arr := a, f := s.f + 1 }
/-- `drop_front` (499-501) -/
def dropFront (s : SubArr α) : SubArr α := { s with f := s.f + 1 }

/-! ## windows of arrays and of windows -/

/-- `sub(arr, first, last)`, `csub`, `sub_copy` of an array with iterators (sub.hpp 23-32, 149-158, 236-245; sub_array.hpp 155-180) -/
def subIt (a : List α) (first last : Int) : SubArr α := ⟨a, first - 0, last - 0⟩
/-- the same up to the end (sub.hpp 33-41, 159-167, 246-254) -/
def subIt1 (a : List α) (first : Int) : SubArr α := subIt a first a.length
/-- `sub_window(arr, to_first, to_last)` of an array (sub_window.hpp 22-31, 83-92, 133-142) -/
def subWindow (a : List α) (f l : Int) : SubArr α := ⟨a, f, l⟩
/-- the same up to the end (sub_window.hpp 32-40, 93-101, 143-151) -/
def subWindow1 (a : List α) (f : Int) : SubArr α := ⟨a, f, a.length⟩
/-- `sub_offset(arr, from_begin, from_end)` of an array (sub_offset.hpp 22-41, 56-65, 84-93) -/
def subOffset (a : List α) (p q : Int) : SubArr α := ⟨a, p, a.length + q⟩

/-- `sub(s, first, last)` of a window with iterators (sub.hpp 101-110; sub_array.hpp 268-276); positions in the array -/
def reSubIt (s : SubArr α) (first last : Int) : SubArr α := ⟨s.arr, first - 0, last - 0⟩
/-- `csub(s, first, last)`, `sub_copy` (sub.hpp 188-197, 275-284) -/
def cSubIt (s : SubArr α) (first last : Int) : SubArr α := subIt s.arr first last
/-- `sub_window(s, to_first, to_last)` of a window (sub_window.hpp 60-69; sub_array.hpp 277-285) -/
def reWindow (s : SubArr α) (f l : Int) : SubArr α := ⟨s.arr, s.f + f, s.f + l⟩
/-- the same up to the end (sub_window.hpp 70-78) -/
def reWindow1 (s : SubArr α) (f : Int) : SubArr α := s.reWindow f s.size
/-- `csub_window(s, to_first, to_last)`, `sub_window_copy` (sub_window.hpp 102-115, 152-165) -/
def cWindow (s : SubArr α) (f l : Int) : SubArr α := ⟨s.arr, s.f + f, s.f + l⟩
/-- the same up to the end (sub_window.hpp 116-128, 166-178) -/
def cWindow1 (s : SubArr α) (f : Int) : SubArr α := ⟨s.arr, s.f + f, s.f + s.size⟩
/-- `sub_offset(s, from_begin, from_end)` (sub_offset.hpp 42-51) -/
def reOffset (s : SubArr α) (p q : Int) : SubArr α := s.reWindow p (s.size + q)
/-- `csub_offset`, `sub_offset_copy` (sub_offset.hpp 66-79, 94-107) -/
def cOffset (s : SubArr α) (p q : Int) : SubArr α := ⟨s.arr, s.f + p, s.l + q⟩

/-! ## comparison -/

/-- `operator==` (comparison.hpp 26-30): the three-iterator `equal` -/
def eq (e : α → α → Bool) (s t : SubArr α) : Option Bool := equalRa s.arr t.arr e s.f.toNat s.l.toNat t.f.toNat
/-- `operator!=` (comparison.hpp 31-35) -/
def ne (e : α → α → Bool) (s t : SubArr α) : Option Bool := (eq e s t).map (!·)
/-- `operator<` (comparison.hpp 36-43) -/
def lt (c : α → α → Bool) (s t : SubArr α) : Option Bool := lexCompareRa c s.arr t.arr s.f.toNat s.l.toNat t.f.toNat t.l.toNat
/-- `operator>` (comparison.hpp 44-48) -/
def gt (c : α → α → Bool) (s t : SubArr α) : Option Bool := lt c t s
/-- `operator<=` (comparison.hpp 49-53) -/
def le (c : α → α → Bool) (s t : SubArr α) : Option Bool := (lt c t s).map (!·)
/-- `operator>=` (comparison.hpp 54-58) -/
def ge (c : α → α → Bool) (s t : SubArr α) : Option Bool := (lt c s t).map (!·)

end SubArr

end Sprout
