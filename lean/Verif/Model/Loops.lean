import Verif.Model.Find

/-!
# Loops as expressions

`sprout/utility/while_loop.hpp`, `until_loop.hpp`, `sprout/algorithm/fold_while.hpp`, `fold_until.hpp`, `any_of_equal.hpp`, `all_of_equal.hpp`,
`none_of_equal.hpp`.

`none` stands for undefined behaviour (of an operation or a read) or a loop that does not end. Counters are unbounded.
-/

namespace Sprout.Loops

variable {α T : Type}

/-- `while_loop_check` (utility/while_loop.hpp 16-20) after the operation (25) -/
def whileStep (pred : T → Bool) (op : T → Option T) (s : T × Bool) : Option (T × Bool) := do
  let t ← op s.1
  some (t, !pred t)

/-- `while_loop` (utility/while_loop.hpp 21-61) -/
def whileLoop (init : T) (pred : T → Bool) (op : T → Option T) : Option T := do
  let r ← dbl (finIf fun s : T × Bool => s.2 || !pred s.1) (whileStep pred op) (init, false) 1
  some r.1

/-- `flat_while_loop` (utility/while_loop.hpp 69-75) -/
def flatWhile (init : T) (pred : T → Bool) (op : T → Option T) : Option T :=
  if pred init then do
    let t ← op init
    flatWhile t pred op
  else some init
partial_fixpoint

/-- `until_loop_check` (utility/until_loop.hpp 16-20) after the operation (25) -/
def untilStep (pred : T → Bool) (op : T → Option T) (s : T × Bool) : Option (T × Bool) := do
  let t ← op s.1
  some (t, pred t)

/-- `until_loop` (utility/until_loop.hpp 21-61) -/
def untilLoop (init : T) (pred : T → Bool) (op : T → Option T) : Option T := do
  let r ← dbl (finIf fun s : T × Bool => s.2 || pred s.1) (untilStep pred op) (init, false) 1
  some r.1

/-- `flat_until_loop` (utility/until_loop.hpp 69-75) -/
def flatUntil (init : T) (pred : T → Bool) (op : T → Option T) : Option T :=
  if !pred init then do
    let t ← op init
    flatUntil t pred op
  else some init
partial_fixpoint

/-- `fold_while` (algorithm/fold_while.hpp 18-67) -/
def foldWhile (m : List α) (first last : Nat) (init : T) (op : T → α → T) (pred : T → Bool) : Option T := do
  let r ← dbl (finIf fun s : Nat × T => s.1 == last || !pred s.2)
    (fun s => do
      let x ← rd m s.1
      some (s.1 + 1, op s.2 x))
    (first, init) 1
  some r.2

/-- `fold_until` (algorithm/fold_until.hpp 18-67) -/
def foldUntil (m : List α) (first last : Nat) (init : T) (op : T → α → T) (pred : T → Bool) : Option T := do
  let r ← dbl (finIf fun s : Nat × T => s.1 == last || pred s.2)
    (fun s => do
      let x ← rd m s.1
      some (s.1 + 1, op s.2 x))
    (first, init) 1
  some r.2

/-- `any_of_equal`, random access (algorithm/any_of_equal.hpp 20-51) -/
def anyOfEqualRa [BEq α] (m : List α) (first last : Nat) (v : α) : Option Bool :=
  if first = last then some false else halveAny (testAt m fun x => x == v) first last ((last - first) / 2)

/-- `any_of_equal`, input iterators (any_of_equal.hpp 53-98) -/
def anyOfEqualIn [BEq α] (m : List α) (first last : Nat) (v : α) : Option Bool := do
  let r ← dbl (finIf fun s : Nat × Bool => s.2 || s.1 == last)
    (fun s => do
      let x ← rd m s.1
      some (if x == v then (s.1, true) else (s.1 + 1, false)))
    (first, false) 1
  some r.2

/-- `all_of_equal`, random access (algorithm/all_of_equal.hpp 20-51) -/
def allOfEqualRa [BEq α] (m : List α) (first last : Nat) (v : α) : Option Bool :=
  if first = last then some true else halveAll (testAt m fun x => x == v) first last ((last - first) / 2)

/-- `all_of_equal`, input iterators (all_of_equal.hpp 53-98) -/
def allOfEqualIn [BEq α] (m : List α) (first last : Nat) (v : α) : Option Bool := do
  let r ← dbl (finIf fun s : Nat × Bool => !s.2 || s.1 == last)
    (fun s => do
      let x ← rd m s.1
      some (if x == v then (s.1 + 1, true) else (s.1, false)))
    (first, true) 1
  some r.2

/-- `none_of_equal`, random access (algorithm/none_of_equal.hpp 20-51) -/
def noneOfEqualRa [BEq α] (m : List α) (first last : Nat) (v : α) : Option Bool :=
  if first = last then some true else halveAll (testAt m fun x => !(x == v)) first last ((last - first) / 2)

/-- `none_of_equal`, input iterators (none_of_equal.hpp 53-98) -/
def noneOfEqualIn [BEq α] (m : List α) (first last : Nat) (v : α) : Option Bool := do
  let r ← dbl (finIf fun s : Nat × Bool => !s.2 || s.1 == last)
    (fun s => do
      let x ← rd m s.1
      some (if !(x == v) then (s.1 + 1, true) else (s.1, false)))
    (first, true) 1
  some r.2

end Sprout.Loops
