import Verif.Basic

/-!
# `sprout::optional`

Models of `sprout/optional/*.hpp` with `sprout/utility/value_holder/*.hpp` and `sprout/utility/compare_pointees.hpp`.

`optional<T>` is a flag and a `value_holder<T>`. The four specialisations of `holder_helper` are values of `Policy`:
what the holder contains (`H`: the object, or a pointer), what it is constructed from (`P`: an object, or the address of
one), what reading it gives. Undefined behaviour, failed assertions and programs that do not compile are `none`.

Simplifications: objects are values of `α` that are copied and moved without effect; `const` is not tracked except where
it decides whether a constructor is viable.
-/

namespace Sprout
namespace Opt
variable {H P α β : Type}

/-- `holder_helper` (value_holder.hpp 25-162): `dflt` is `holder_()`, `hold` constructs from `argument_type`, `holdMove`
from `movable_argument_type` (`none`: the constructor does not compile), `ref` is `ref`, `adr` is `*v` as the argument of
a constructor of a holder (for references the address, undefined if null), `ptr` is `ptr` compared with the null pointer. -/
structure Policy (H P α : Type) where
  dflt : H
  hold : P → H
  holdMove : Option (P → H)
  ref : H → Option α
  adr : H → Option P
  ptr : H → Bool

/-- `holder_helper<T>`, `holder_helper<T const>` (25-98): the object itself, never null; `d` is `T()`. -/
def objPolicy (d : α) : Policy α α α :=
  { dflt := d, hold := id, holdMove := some id, ref := some, adr := some, ptr := fun _ => true }

/-- `holder_helper<T&>` (99-130): a pointer into the memory `m`; `hold` (117-119) takes an lvalue only, so that the constructor
from `movable_param_type` (231-233) does not compile; `ref` (120-126) does not test for null. -/
def refPolicy (m : List α) : Policy (Option Nat) Nat α :=
  { dflt := none, hold := some, holdMove := none, ref := fun p => p.bind (m[·]?), adr := id, ptr := Option.isSome }

/-- `holder_helper<T const&>` (131-162): `hold` (149-151) takes rvalues, too. -/
def crefPolicy (m : List α) : Policy (Option Nat) Nat α :=
  { dflt := none, hold := some, holdMove := some some, ref := fun p => p.bind (m[·]?), adr := id, ptr := Option.isSome }

/-- `optional<T>`: optional/optional.hpp 104-105 -/
structure O (H : Type) where
  init : Bool
  val : H
  deriving DecidableEq, Repr

/-- exceptions of `optional` (optional/exceptions.hpp; `std::out_of_range`) -/
inductive Exc | badAccess | outOfRange
  deriving DecidableEq, Repr

/-- return or exception -/
inductive Out (β : Type) | ret (b : β) | throw (e : Exc)
  deriving DecidableEq, Repr

variable (p : Policy H P α)

/-- `optional()`, `optional(nullopt_t)`: 112-117 -/
def empty : O H := ⟨false, p.dflt⟩

/-- `optional(T const&)`: 131-134 -/
def ofValue (v : P) : O H := ⟨true, p.hold v⟩

/-- `optional(bool, T const&)`: 156-159 -/
def ofCond (c : Bool) (v : P) : O H := ⟨c, if c then p.hold v else p.dflt⟩


/-- `optional(optional const&)` and `optional(optional<U> const&)`: 118-121, 165-169 -/
def copy (o : O H) : Option (O H) := do
  if o.init then
    let a ← p.adr o.val
    some ⟨o.init, p.hold a⟩
  else some ⟨o.init, p.dflt⟩

/-- `optional(optional&&)` and `optional(optional<U>&&)`: 125-129, 170-174. Both operands of the conditional operator are compiled,
whatever the flag is. -/
def move (o : O H) : Option (O H) :=
  match p.holdMove with
  | none => none
  | some f => do
    if o.init then
      let a ← p.adr o.val
      some ⟨o.init, f a⟩
    else some ⟨o.init, p.dflt⟩

/-- `swap`: 275-280 -/
def swap (a b : O H) : O H × O H := (⟨b.init, b.val⟩, ⟨a.init, a.val⟩)

/-- `assign(optional const&)`: 230-233; returns the new `*this` -/
def assign (this v : O H) : Option (O H) := do
  let temp ← copy p v
  some (swap temp this).2

/-- `assign(U&&)`, `emplace`, `reset(U&&)`: 210-225, 240-248, 266-273 -/
def assignValue (this : O H) (v : P) : O H := (swap (ofValue p v) this).2

/-- `assign(nullopt_t)`, `reset`: 107-109, 227-229, 260-265 -/
def reset (this : O H) : O H := { this with init := false }

/-- `operator*`: 309-318 (assertion) -/
def deref (o : O H) : Option α := if o.init then p.ref o.val else none

/-- `get`, `value`: 319-334 -/
def get (o : O H) : Option (Out α) := if o.init then (p.ref o.val).map .ret else some (.throw .badAccess)

/-- `value_or`, `get_value_or`: 90-102, 336-351 -/
def valueOr (o : O H) (v : α) : Option α := if o.init then p.ref o.val else some v

/-- member `get_pointer`, `get_ptr`, compared with null: 292-307 -/
def memberPtr (o : O H) : Bool := if o.init then p.ptr o.val else false

/-- static and free `get_pointer(x)`, free `get(&x)`, compared with null: 81-89, optional/get.hpp 33-61 -/
def freePtr (o : O H) : Bool := p.ptr o.val

/-- static and free `get(x)`: 72-80, optional/get.hpp 18-32 -/
def freeGet (o : O H) : Option α := p.ref o.val

/-- `size`: 406-410 -/
def size (o : O H) : Nat := if o.init then 1 else 0
/-- `max_size`: 411-413 -/
def maxSize (o : O H) : Nat := size o
/-- `empty`: 414-416 -/
def isEmpty (o : O H) : Bool := !o.init

/-- `at`: 424-433 -/
def at' (o : O H) (i : Nat) : Option (Out α) := if i < size o then (p.ref o.val).map .ret else some (.throw .outOfRange)

/-- `operator[]`, `front`, `back`: 418-423, 434-445 -/
def index (o : O H) : Option α := p.ref o.val

/-- `rangecheck`: 447-451 -/
def rangecheck (o : O H) (i : Nat) : Out Unit := if i ≥ size o then .throw .outOfRange else .ret ()

/-! ### iterators: `value_iterator<T&>` (iterator/value_iterator.hpp 28-181): a pointer to the object (`none`: null) and an index -/

/-- `holder_` (a `value_holder<T&>`) and `index_`: 60-61 -/
structure It (H : Type) where
  holder : Option H
  index : Int

/-- `begin`: optional.hpp 363-372 -/
def begin' (o : O H) : It H := if o.init then ⟨some o.val, 1⟩ else ⟨none, 0⟩
/-- `end`: 373-378 -/
def end' (_ : O H) : It H := ⟨none, 0⟩
/-- `next`, `prev`, `operator*`, `==`: value_iterator.hpp 83-88, 95-97, 142-146 -/
def It.next (i : It H) : It H := ⟨i.holder, i.index - 1⟩
def It.prev (i : It H) : It H := ⟨i.holder, i.index + 1⟩
def It.deref (i : It H) : Option α := i.holder.bind p.ref
def It.eq (i j : It H) : Bool := i.index == j.index
/-- `operator-`: 172-176 -/
def It.diff (i j : It H) : Int := j.index - i.index

/-- `for (; it != last; ++it) push_back(*it)` -/
def walk (it last : It H) : Option (List α) := do
  if it.eq last then some []
  else
    let v ← it.deref p
    let r ← walk it.next last
    some (v :: r)
partial_fixpoint

/-- the loop over `rbegin`, `rend` (379-390): `reverse_iterator` reads the element before its base (iterator/reverse_iterator.hpp) -/
def rwalk (base last : It H) : Option (List α) := do
  if base.eq last then some []
  else
    let v ← base.prev.deref p
    let r ← rwalk base.prev last
    some (v :: r)
partial_fixpoint

def values (o : O H) : Option (List α) := walk p (begin' o) (end' o)
def rvalues (o : O H) : Option (List α) := rwalk p (end' o) (begin' o)

/-- the constructor that `iterator(val, static_size)` (optional.hpp 364) selects in `value_iterator` (value_iterator.hpp 62-76). The
constructor from `value_holder<reference> const&` is private; it is the best match if `val` is a `value_holder<reference>`, that is
if `T` is the reference type the iterator is made for. `t` and `i` are `T` and the parameter of the iterator (`true`: a reference,
and whether to const). -/
inductive Ty | obj | ref | cref
  deriving DecidableEq, Repr

/-- does `iterator(val, static_size)` compile for `optional<t>` with `value_iterator<i>` -/
def beginCompiles (t i : Ty) : Bool := !(t == i)

/-- `iterator` and `const_iterator` (optional.hpp 58-59; value_holder.hpp 31-34, 105-108, 137-140) -/
def iterTy : Ty → Ty | .obj => .ref | .ref => .ref | .cref => .cref
def citerTy : Ty → Ty | .obj => .cref | .ref => .cref | .cref => .cref

/-! ### comparison: optional/comparison.hpp, utility/compare_pointees.hpp -/

/-- `equal_pointees`: 18-22 -/
def eq (eqv : α → α → Bool) (l r : O H) : Option Bool :=
  if (!l.init) != (!r.init) then some false
  else if !l.init then some true
  else do some (eqv (← deref p l) (← deref p r))

/-- `less_pointees`: 34-38 -/
def lt (ltv : α → α → Bool) (l r : O H) : Option Bool :=
  if !r.init then some false
  else if !l.init then some true
  else do some (ltv (← deref p l) (← deref p r))

/-- `!=`, `>`, `<=`, `>=`: comparison.hpp 30-54 -/
def ne (eqv : α → α → Bool) (l r : O H) : Option Bool := do some !(← eq p eqv l r)
def gt (ltv : α → α → Bool) (l r : O H) : Option Bool := lt p ltv r l
def le (ltv : α → α → Bool) (l r : O H) : Option Bool := do some !(← lt p ltv r l)
def ge (ltv : α → α → Bool) (l r : O H) : Option Bool := do some !(← lt p ltv l r)

/-- comparisons with `nullopt` on the right: 64-68, 74-78, 84-88, 94-98, 104-108, 114-118 -/
def eqNull (l : O H) : Bool := !l.init
def neNull (l : O H) : Bool := l.init
def ltNull (_ : O H) : Bool := false
def gtNull (l : O H) : Bool := l.init
def leNull (l : O H) : Bool := !l.init
def geNull (_ : O H) : Bool := true
/-- comparisons with `nullopt` on the left: 69-73, 79-83, 89-93, 99-103, 109-113, 119-123 -/
def nullEq (r : O H) : Bool := !r.init
def nullNe (r : O H) : Bool := r.init
def nullLt (r : O H) : Bool := r.init
def nullGt (_ : O H) : Bool := false
def nullLe (_ : O H) : Bool := true
def nullGe (r : O H) : Bool := !r.init

/-- `hash_value`: optional/hash.hpp 21-27 -/
def hash (h : α → Nat) (o : O H) : Option Nat := if o.init then do some (h (← deref p o)) else some 0

/-! ### streams: optional/io.hpp -/

/-- an input stream: the characters left, `failbit`, `eofbit` -/
structure IStream where
  rest : List Nat
  fail : Bool
  eof : Bool
  deriving DecidableEq, Repr

def IStream.good (s : IStream) : Bool := !s.fail && !s.eof

/-- `istream::get()`: `none` is end of file (sets `eofbit` and `failbit`) -/
def IStream.get (s : IStream) : Option Nat × IStream :=
  if s.good then
    match s.rest with
    | c :: r => (some c, { s with rest := r })
    | [] => (none, { s with fail := true, eof := true })
  else (none, { s with fail := true })

/-- `operator<<`: io.hpp 46-57, on a good stream: the characters written; `w` writes a value -/
def write (w : α → List Nat) (o : O H) : Option (List Nat) :=
  if !o.init then some [45, 45] else do some (32 :: w (← deref p o))

/-- `operator>>`: io.hpp 21-42; `r` is `lhs >> x` for a default-initialised `T x` (27-28): the value of `x`, `none` if `x` has not
been given a value; then `rhs = x` (29) is undefined. Result: the stream and `rhs`. -/
def read (r : IStream → Option P × IStream) (s : IStream) (rhs : O H) : Option (IStream × O H) :=
  if s.good then
    let d := s.get
    if d.1 = some 32 then
      let x := r d.2
      match x.1 with
      | some v => some (x.2, assignValue p rhs v)
      | none => none
    else if d.1 = some 45 then
      let d' := d.2.get
      if d'.1 = some 45 then some (d'.2, reset rhs)
      else some ({ d'.2 with fail := true }, rhs)
    else some ({ d.2 with fail := true }, rhs)
  else some (s, rhs)

/-- `istream >> unsigned` (C++11 [istream.formatted], [facet.num.get]): the sentry skips white space; at the end of the stream it sets
`failbit`, and the variable is not assigned; without a digit `0` is assigned and `failbit` set. Values are unbounded here. -/
def readNat (s : IStream) : Option Nat × IStream :=
  if !s.good then (none, { s with fail := true })
  else
    let t := s.rest.dropWhile (fun c => c == 32 || (9 ≤ c && c ≤ 13))
    if t = [] then (none, ⟨[], true, true⟩)
    else
      let ds := t.takeWhile (fun c => 48 ≤ c && c ≤ 57)
      let u := t.drop ds.length
      (some (ds.foldl (fun a c => 10 * a + (c - 48)) 0), ⟨u, decide (ds = []), decide (u = [])⟩)

end Opt
end Sprout
