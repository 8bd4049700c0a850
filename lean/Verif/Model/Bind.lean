import Verif.Model.TypeList

/-!
# `sprout::bind`

`sprout/functional/bind/bind.hpp`, `placeholder.hpp`, `literals.hpp`.

Simplifications: all values have one type; value categories are not represented, nor the conversion of the result of `bind<R>` to `R`, nor
the operators of `volatile` objects (which copy a placeholder from a volatile object and are ill-formed, bind.hpp 144). A nested bind
expression is represented by its call operators: of a non-const object (`false`) and of a const object (`true`). Template arguments
`std::size_t` have 64 bits.
-/

namespace Sprout.Bind

open TypeList

/-- what a function object receives: a value, an object `reference_wrapper`, or a placeholder or bind expression as an object -/
inductive Passed (α : Type)
  | val (a : α)
  | wrapper (a : α)
  | object

/-- bound arguments: values, `reference_wrapper`, `placeholder<n>` (placeholder.hpp 18-19), `variadic_placeholder<n>` (33-34), bind
expressions -/
inductive Bound (α : Type)
  | val (a : α)
  | ref (a : α)
  | ph (n : Int)
  | va (n : Nat)
  | bind (call : Bool → List α → Option α)

variable {α : Type}

/-- numbers of `std::size_t` -/
def W : Nat := 2 ^ 64

/-- `_1tail` etc. are `variadic_placeholder<1>` etc., `_va` is `variadic_placeholder<0>` (placeholder.hpp 71-101) -/
def tail (n : Nat) : Bound α := .va n

/-- the literals `1_` etc. (literals.hpp 25-30, 44-49) -/
def literal (n : Nat) : Bound α := .ph n

/-- the literals `1_tail` etc. (literals.hpp 31-36, 50-55): `is_placeholder` of a `variadic_placeholder` is 0 (placeholder.hpp 172-175) -/
def literalTail (n : Nat) : Bound α := .ph (0 - n)

/-- `bound_size` (bind.hpp 227-240); `tail_place` is `n` (222-225, placeholder.hpp 246-249) -/
def boundSize (b : Bound α) (argSize : Nat) : Nat :=
  match b with
  | .va n => (argSize + W - n) % W
  | _ => 1

/-- `bounds_size` (bind.hpp 242-261) -/
def boundsSize (argSize : Nat) : List (Bound α) → Nat
  | [] => 0
  | b :: bs => (boundSize b argSize + boundsSize argSize bs) % W

/-- `bounds_partial_size` (bind.hpp 263-282) -/
def partialSize (argSize : Nat) : List (Bound α) → Nat → List Nat
  | [], _ => []
  | b :: bs, current => current :: partialSize argSize bs ((current + boundSize b argSize) % W)

/-- `bound_position` (bind.hpp 289-299) -/
def boundPosition (i : Nat) (bs : List (Bound α)) (argSize : Nat) : Option Nat := do
  let r ← lowerBoundIndex (fun x t => decide (x < t)) (partialSize argSize bs 0) (i + 1)
  if r = 0 then none else some (r - 1)

/-- `bound_element` and the object `get_bound` returns (bind.hpp 301-337, 382-406) -/
def boundElement (i : Nat) (bs : List (Bound α)) (argSize : Nat) : Option (Bound α) := do
  let pos ← boundPosition i bs argSize
  let b ← bs[pos]?
  let s ← (partialSize argSize bs 0)[pos]?
  match b with
  | .va n => some (.ph (i + 1 - s + n))
  | _ => some b

/-- an object that is passed as it is (bind.hpp 149-164) -/
def pass : Bound α → Passed α
  | .val a => .val a
  | .ref a => .wrapper a
  | .ph _ => .object
  | .va _ => .object
  | .bind _ => .object

/-- `mu<T>` (bind.hpp 79-164), where `T` is the type of `t`, cv-qualified if `q`: the specializations for `reference_wrapper` (85-104)
are not for cv-qualified types; `v` is the object it is called with, const if `c` -/
def mu (q c : Bool) (t v : Bound α) (args : List α) : Option (Passed α) :=
  match t with
  | .bind _ =>
    match v with
    | .bind call => (call c args).map .val
    | _ => none
  | .ph n =>
    if 0 < n then
      match v with
      | .ph m => if m = n then (args[(n - 1).toNat]?).map .val else none
      | _ => none
    else some (pass v)
  | .ref _ =>
    if q then some (pass v)
    else match v with
      | .ref a => some (.val a)
      | _ => none
  | _ => some (pass v)

/-- `binder_impl::call` and `call_c` (bind.hpp 422-435); `bound_indexes` (284-287) -/
def callBinder (c : Bool) (f : List (Passed α) → Option α) (bs : List (Bound α)) (args : List α) : Option α := do
  let vs ← (List.range (boundsSize args.length bs)).mapM fun i => do
    let e ← boundElement i bs args.length
    mu c c e e args
  f vs

/-- `res_binder_impl::call` (bind.hpp 633-641, 651-659): the packs `BoundArgs` and `Indexes` are expanded together, their lengths have
to agree -/
def callRes (c : Bool) (f : List (Passed α) → Option α) (bs : List (Bound α)) (args : List α) : Option α :=
  if boundsSize args.length bs ≠ bs.length then none
  else do
    let vs ← (List.range bs.length).mapM fun i => do
      let t ← bs[i]?
      let e ← boundElement i bs args.length
      mu false c t e args
    f vs

/-- the classes `binder` (bind.hpp 506-566), `cbinder` (572-609), `res_binder` (719-762), `res_cbinder` (768-797); `cbinder` and
`res_cbinder` have call operators of const objects only -/
inductive Kind
  | binder
  | cbinder
  | resBinder
  | resCbinder
  deriving DecidableEq

/-- the binder as a bind expression (bind.hpp 802-817) -/
def mk (k : Kind) (f : List (Passed α) → Option α) (bs : List (Bound α)) : Bound α :=
  .bind fun c args =>
    match k with
    | .binder => callBinder c f bs args
    | .cbinder => callBinder true f bs args
    | .resBinder => callRes c f bs args
    | .resCbinder => callRes true f bs args

/-- call of an object, const if `c` -/
def call (b : Bound α) (c : Bool) (args : List α) : Option α :=
  match b with
  | .bind g => g c args
  | _ => none

/-- arguments of `bind`: `_` (placeholder.hpp 23-29, 69) or others -/
inductive Arg (α : Type)
  | pos
  | bound (b : Bound α)

/-- `binder_complete_placeholders_impl` and `res_binder_complete_placeholders_impl` (bind.hpp 834-872, 892-930); `acc` are the arguments
`As...`, the list is `Bounds` from `I` on -/
def complete (n : Nat) (acc : List (Bound α)) : List (Arg α) → List (Bound α)
  | [] => acc
  | .pos :: rest => complete (n + 1) (acc ++ [.ph (n + 1)]) rest
  | .bound b :: rest => complete n (acc ++ [b]) rest

/-- `bind`, `cbind`, `bind<R>`, `cbind<R>` (bind.hpp 998-1033, 873-890, 931-963) -/
def bind (k : Kind) (f : List (Passed α) → Option α) (args : List (Arg α)) : Bound α := mk k f (complete 0 [] args)

end Sprout.Bind
