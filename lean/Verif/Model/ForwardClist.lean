/-!
# Intrusive forward lists (`sprout/forward_clist.hpp`)

Items and the member `fst` of lists are objects with addresses (natural numbers), and a holder of an item is its address or null
(`value_holder<item&>`: `sprout/utility/value_holder/value_holder.hpp`, 99-130; copied and assigned as a pointer, 249-258). The state is
the member `next` of every item. Dereferencing null is undefined. Values of items never change here. `const_iterator` and `iterator`
are the same pointer (94-96).
-/

namespace Sprout
namespace Clist

/-- the member `next` (230) of each item -/
abbrev Heap := Nat → Option Nat

/-- assignment to the member `next` of an item -/
def set (h : Heap) (a : Nat) (n : Option Nat) : Heap := fun b => if b = a then n else h b

/-- `p->next`, where `p` is a holder -/
def nextOf (h : Heap) (p : Option Nat) : Option (Option Nat) := p.map h

/-- `p->next = n`; `p->unlink()` (263-266) assigns null -/
def setNext (h : Heap) (p n : Option Nat) : Option Heap := p.map fun a => set h a n

/-- `operator==` of iterators: 126-135; addresses of values are those of items -/
def iterEq : Option Nat → Option Nat → Bool
  | none, b => b.isNone
  | some a, b => b == some a

/-- `*it`: 105-107 -/
def deref {α : Type} (val : Nat → α) (it : Option Nat) : Option α := it.map val

/-- `before_begin()`: 349-351 -/
def beforeBegin (fst : Nat) : Option Nat := some fst

/-- `before_begin() const`: 352-354; `item_holder_type(fst)` of a const item does not compile (argument types `item&`, `item&&`) -/
def beforeBeginConst (_fst : Nat) : Option (Option Nat) := none

/-- `cbefore_begin()`: 370-372 -/
def cbeforeBegin (h : Heap) (fst : Nat) : Option Nat := h fst

/-- `begin()`, `cbegin()`: 355-360, 367-369 -/
def begin (h : Heap) (fst : Nat) : Option Nat := h fst

/-- `end()`, `cend()`: 361-366, 373-375 -/
def «end» : Option Nat := none

/-- `empty()`: 377-379, `!!fst.next`, where `!` is `!is_initialized()` -/
def empty (h : Heap) (fst : Nat) : Bool := !!(h fst).isSome

/-- `front()`: 384-389 -/
def front {α : Type} (val : Nat → α) (h : Heap) (fst : Nat) : Option α := deref val (h fst)

/-- `push_front(x)`: 391-395 -/
def pushFront (h : Heap) (fst x : Nat) : Option Heap :=
  let nxt := some x
  (setNext h nxt (h fst)).bind fun h => setNext h (some fst) nxt

/-- `pop_front()`: 406-410 -/
def popFront (h : Heap) (fst : Nat) : Option Heap :=
  let nxt := h fst
  (nextOf h nxt).bind fun n => setNext (set h fst n) nxt none

/-- `insert_after(position, x)`: 412-417 -/
def insertAfter (h : Heap) (pos : Option Nat) (x : Nat) : Option (Heap × Option Nat) :=
  let nxt := some x
  (nextOf h pos).bind fun n => (setNext h nxt n).bind fun h => (setNext h pos nxt).map fun h => (h, nxt)

/-- `erase_after(position)`: 431-436 -/
def eraseAfter (h : Heap) (pos : Option Nat) : Option (Heap × Option Nat) :=
  (nextOf h pos).bind fun first => (nextOf h first).bind fun n => (setNext h pos n).bind fun h =>
    (setNext h first none).bind fun h => (nextOf h pos).map fun r => (h, r)

/-- the loop of `erase_after(position, last)`: 440-444 -/
def eraseLoop (h : Heap) (first last : Option Nat) : Option Heap :=
  if iterEq first last then some h
  else do
    let nxt ← nextOf h first
    let h ← setNext h first none
    eraseLoop h nxt last
partial_fixpoint

/-- `erase_after(position, last)`: 437-446 -/
def eraseRange (h : Heap) (pos last : Option Nat) : Option (Heap × Option Nat) :=
  (nextOf h pos).bind fun first => (setNext h pos last).bind fun h => (eraseLoop h first last).map fun h => (h, last)

/-- `item::unlink_all()`: 254-262; `clear()`: 451-453, is `fst.unlink_all()` -/
def unlinkAll (h : Heap) (a : Nat) : Option Heap :=
  match h a with
  | none => some h
  | some b => do
    let h ← unlinkAll h b
    some (set h a none)
partial_fixpoint

/-- the loop of `unlink(x)`: 456-463 -/
def unlinkLoop (h : Heap) (first : Option Nat) (x : Nat) : Option Heap :=
  if iterEq first «end» then some h
  else do
    let nxt ← nextOf h first
    if nxt = some x then (nextOf h nxt).bind fun n => (setNext h first n).bind fun h => setNext h nxt none
    else unlinkLoop h nxt x
partial_fixpoint

/-- `unlink(x)`: 455-464 -/
def unlink (h : Heap) (fst x : Nat) : Option Heap := unlinkLoop h (beforeBegin fst) x

/-- `unlink(first, last)`: 465-470 -/
def unlinkRange (h : Heap) (fst : Nat) : List Nat → Option Heap
  | [] => some h
  | x :: xs => (unlink h fst x).bind fun h => unlinkRange h fst xs

/-- the values seen by a loop from an iterator to `end()` -/
def values {α : Type} (val : Nat → α) (h : Heap) (it : Option Nat) : Option (List α) :=
  if iterEq it «end» then some []
  else do
    let v ← deref val it
    let it ← nextOf h it
    let l ← values val h it
    some (v :: l)
partial_fixpoint

/-- the move constructor: 335-337, copies `fst` (the copy constructor of `item` is defaulted, 271) into the new object -/
def moveCtor (h : Heap) (fst new : Nat) : Heap := set h new (h fst)

/-- members of `value_holder<item&>` (`value_holder.hpp`, 196-329) which `->` finds in a pointer to a holder -/
def holderMembers : List String := ["get", "get_pointer", "get_ptr", "value", "swap", "is_initialized"]

/-- the loops `p = sprout::addressof(*p)->next` of the constructor (325-334), `push_front` (396-405) and `insert_after` (418-429) from
ranges of items: `p` points to a holder, and `->next` is looked up in it; `r` is the result if that compiles -/
def fromRange (r : Heap) : Option Heap := if "next" ∈ holderMembers then some r else none

/-- `swap(other)`: 448-450, of items, whose assignments are deleted (232-233): no overload of `swap` compiles; the same for move
assignment (338-341) and `assign` (342-347); `item::operator=` (279-288) calls `temp.swap(p)` with a value in place of an item -/
def swap (_h : Heap) (_a _b : Nat) : Option Heap := none

end Clist
end Sprout
