/-!
# Counting in `n` elements and the equivalence of a comparison

`sprout/detail/algorithm/count_n.hpp`, `count_n_if.hpp`, `sprout/functional/equiv.hpp`.

An iterator is a position in a list. `none` is undefined behaviour or a recursion that does not end. The count does not overflow: it
is not greater than `n`, which is of the same type.
-/

namespace Sprout.CountN

variable {α : Type}

/-- `count_n_if_impl` (count_n_if.hpp 35-52) and `count_n_impl` (count_n.hpp 34-51): the pair of the position and the count -/
def countNImpl (l : List α) (p : α → Bool) (current : Nat × Nat) (n : Nat) : Option (Nat × Nat) :=
  if n = 1 then
    match l[current.1]? with
    | some a => some (current.1 + 1, current.2 + (if p a then 1 else 0))
    | none => none
  else if n = 0 then none
  else
    match countNImpl l p current (n / 2) with
    | some c => countNImpl l p c (n - n / 2)
    | none => none
termination_by n
decreasing_by all_goals omega

/-- `count_n_if` for input iterators (count_n_if.hpp 53-64), which is chosen for all iterators: the condition of the other overload
asks for a member `pred` that does not exist (24) -/
def countNIf (l : List α) (p : α → Bool) (first n : Nat) : Option Nat :=
  if n = 0 then some 0 else (countNImpl l p (first, 0) n).map Prod.snd

/-- `count_n` for input iterators (count_n.hpp 52-63) -/
def countN [DecidableEq α] (l : List α) (first n : Nat) (value : α) : Option Nat :=
  if n = 0 then some 0 else (countNImpl l (fun a => a = value) (first, 0) n).map Prod.snd

/-- an argument: an lvalue, or an rvalue that is moved from if it is passed by value -/
inductive Arg (α : Type)
  | lvalue (a : α)
  | rvalue (a : α)

/-- the value that an argument has at first -/
def Arg.value : Arg α → α
  | .lvalue a => a
  | .rvalue a => a

/-- the value after it has been forwarded to a function that takes its parameters by value -/
def Arg.after (movedFrom : α → α) : Arg α → α
  | .lvalue a => a
  | .rvalue a => movedFrom a

/-- `equiv_adaptor_impl<Compare, true>::operator()` (equiv.hpp 35-37) -/
def equivStrict (fn : α → α → Bool) (x y : α) : Bool := !fn x y && !fn y x

/-- `equiv_adaptor_impl<Compare, false>::operator()` (equiv.hpp 48-52): both arguments are forwarded twice. `byValue` says that `fn`
takes its parameters by value. The second call is not made if the first one is true. -/
def equivForward (fn : α → α → Bool) (byValue : Bool) (movedFrom : α → α) (x y : Arg α) : Bool :=
  !fn x.value y.value &&
    (if byValue then !fn (y.after movedFrom) (x.after movedFrom) else !fn y.value x.value)

end Sprout.CountN
