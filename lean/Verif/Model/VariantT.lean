import Verif.Model.TypeList

/-!
# `sprout::variant`

Models of `sprout/variant/variant.hpp`, `get.hpp`, `apply_visitor.hpp`, `tuple.hpp`, `io.hpp`.

`variant<Types...>` is a tuple of all alternatives and the index of the active one. Types are elements of `τ`; `dec` is `std::decay`.
Objects of all types are values of `V`; `dflt t` is `t()`. A failed assertion and a program that does not compile are `none`.
-/

namespace Sprout
namespace Var
variable {τ V R : Type} [DecidableEq τ]

/-- `tuple_`, `which_`: variant.hpp 52-53 -/
structure Variant (V : Type) where
  tuple : List V
  which : Nat
  deriving DecidableEq, Repr

variable (dec : τ → τ) (dflt : τ → V) (ts : List τ)

/-- `variant()`: 55-58, 229-231 -/
def dfl : Variant V := ⟨ts.map dflt, 0⟩

/-- `init` (43-50): the alternatives before the operand are given, those after it are default constructed by `flexibly_construct` -/
def init (k : Nat) (v : V) : List V := (ts.take k).map dflt ++ v :: (ts.drop (k + 1)).map dflt

/-- `variant_impl(T&&, Index)` (59-65) called by `variant(T&&)` (234-240) with an operand whose decayed type is `t`; `none` is the type
of the variant itself, which is none of its alternatives -/
def construct (t : Option τ) (v : V) : Option (Variant V) := do
  let k ← TypeList.findIndexIf (fun u => some u == t) (ts.map dec)
  if k < ts.length then some ⟨init dflt ts k v, k⟩ else none

/-- how an argument is passed: lvalue, lvalue of const type, rvalue, rvalue of const type -/
inductive Cat | lvalue | clvalue | rvalue | crvalue
  deriving DecidableEq, Repr

/-- the constructors (232-240), likewise the assignment operators (247-261): `variant const&`, `variant&&`, `T&&` -/
inductive Cand | copy | move | templ
  deriving DecidableEq, Repr

/-- rank of the conversion of a variant argument ([over.ics.rank]): 0 exact, 1 added const, or an lvalue reference bound to an rvalue;
`none`: not viable -/
def rank : Cand → Cat → Option Nat
  | .copy, .clvalue => some 0
  | .copy, _ => some 1
  | .move, .rvalue => some 0
  | .move, _ => none
  | .templ, _ => some 0

/-- overload resolution: the best conversion, and among equal ones a function that is no template ([over.match.best]) -/
def select (c : Cat) : Cand :=
  if rank .copy c = some 0 then .copy
  else if rank .move c = some 0 then .move
  else if rank .templ c = some 0 then .templ
  else .copy

/-- `variant(x)` with a variant `x` -/
def constructFrom (c : Cat) (x : Variant V) (asOperand : V) : Option (Variant V) :=
  match select c with
  | .copy => some ⟨x.tuple, x.which⟩
  | .move => some ⟨x.tuple, x.which⟩
  | .templ => construct dec dflt ts none asOperand

/-- `*this = x` with a variant `x`: 247-261; the template constructs a variant from `x` as it was passed -/
def assignFrom (c : Cat) (_this x : Variant V) (asOperand : V) : Option (Variant V) :=
  match select c with
  | .copy => some ⟨x.tuple, x.which⟩
  | .move => some ⟨x.tuple, x.which⟩
  | .templ => constructFrom dec dflt ts c x asOperand

/-- `*this = v` with a value of (decayed) type `t`: 257-261 -/
def assignValue (_this : Variant V) (t : τ) (v : V) : Option (Variant V) := construct dec dflt ts (some t) v

/-- `swap`: 67-72, 242-246 -/
def swap (a b : Variant V) : Variant V × Variant V := (⟨b.tuple, b.which⟩, ⟨a.tuple, a.which⟩)

/-- `eq<I>` (156-172) and `lt<I>` (173-189): `c` compares two objects of a type -/
def cmpFrom (c : τ → V → V → Bool) (l r : List V) (which I : Nat) : Option Bool :=
  if I < ts.length then
    if I = which then do some (c (← ts[I]?) (← l[I]?) (← r[I]?))
    else cmpFrom c l r which (I + 1)
  else some false
termination_by ts.length - I

/-- `operator==`: 270-272 -/
def eq (eqv : τ → V → V → Bool) (l r : Variant V) : Option Bool :=
  if l.which = r.which then cmpFrom ts eqv l.tuple r.tuple l.which 0 else some false

/-- `operator<`: 276-280 -/
def lt (ltv : τ → V → V → Bool) (l r : Variant V) : Option Bool :=
  if l.which < r.which then some true
  else if l.which = r.which then cmpFrom ts ltv l.tuple r.tuple l.which 0
  else some false

/-- `!=`, `>`, `<=`, `>=`: 273-275, 281-289 -/
def ne (eqv : τ → V → V → Bool) (l r : Variant V) : Option Bool := do some !(← eq ts eqv l r)
def gt (ltv : τ → V → V → Bool) (l r : Variant V) : Option Bool := lt ts ltv r l
def le (ltv : τ → V → V → Bool) (l r : Variant V) : Option Bool := do some !(← lt ts ltv r l)
def ge (ltv : τ → V → V → Bool) (l r : Variant V) : Option Bool := do some !(← lt ts ltv l r)

/-- `output<I>`: 190-206; `w` writes an object of a type -/
def outputFrom (w : τ → V → List Nat) (t : List V) (which I : Nat) : Option (List Nat) :=
  if I < ts.length then
    if I = which then do some (w (← ts[I]?) (← t[I]?))
    else outputFrom w t which (I + 1)
  else some []
termination_by ts.length - I

/-- `operator<<`: 291-294 -/
def output (w : τ → V → List Nat) (x : Variant V) : Option (List Nat) := outputFrom ts w x.tuple x.which 0

/-- `get_at<I>` (296-313), `tuple_get<I>` (tuple.hpp 23-46) -/
def getAt (x : Variant V) (i : Nat) : Option V := if i < ts.length then (if i = x.which then x.tuple[i]? else none) else none

/-- `get<U>` (314-327), free `get<U>` (get.hpp 20-29): `contains` and `find_index` look at the types as written -/
def get (x : Variant V) (u : τ) : Option V := do
  let k ← TypeList.findIndexIf (· == u) ts
  if k < ts.length then getAt ts x k else none

/-- `visit<Result, I>` (207-223); `f` is the visitor -/
def visitFrom (f : τ → V → R) (t : List V) (which I : Nat) : Option R :=
  if I < ts.length then
    if I = ts.length - 1 then do some (f (← ts[I]?) (← t[I]?))
    else if I = which then do some (f (← ts[I]?) (← t[I]?))
    else visitFrom f t which (I + 1)
  else none
termination_by ts.length - I

/-- `apply_visitor` (329-344; apply_visitor.hpp 20-27) -/
def visit (f : τ → V → R) (x : Variant V) : Option R := if x.which < ts.length then visitFrom ts f x.tuple x.which 0 else none

/-- `operator<<` of variant/io.hpp 38-44 -/
def outputVisit (w : τ → V → List Nat) (x : Variant V) : Option (List Nat) := visit ts w x

end Var
end Sprout
