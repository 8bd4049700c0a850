import Verif.Model.FixedAlg

/-!
# Numeric algorithms that return containers

sprout/numeric/fixed, on the containers of Model/ContOp. The input range is the list of its elements. Versions without an operation
are those with `+` (`-`). A call for which every overload is disabled or not viable does not compile; it is the absence of a result.
-/

namespace Sprout.FixedAlg

open ContOp

variable {α β : Type} [Inhabited α]

/-- `transform_inclusive_scan_impl_1` (transform_inclusive_scan.hpp 25-56); `partial_sum_impl_1` (partial_sum.hpp 25-55, 100-130) is
the same without `unary_op` -/
def inclusiveImpl1 (c : Cont α) (op : α → α → α) (un : β → α) : List β → α → List α → Option (Cont α)
  | [], value, args =>
    if c.static = args.length + 1 then some (remake c c c.size (args ++ [value])) else complate c (args ++ [value])
  | x :: xs, value, args =>
    if c.static = args.length + 1 then some (remake c c c.size (args ++ [value]))
    else if ((args.length + 1 : Nat) : Int) < c.size then inclusiveImpl1 c op un xs (op value (un x)) (args ++ [value])
    else complate c (args ++ [value])

/-- `transform_inclusive_scan` (transform_inclusive_scan.hpp 57-97) -/
def transformInclusiveScanTo (op : α → α → α) (un : β → α) (xs : List β) (c : Cont α) : Option (Cont α) :=
  if c.static = 0 then some (remake c c c.size [])
  else match xs with
    | [] => complate c []
    | x :: xs => inclusiveImpl1 c op un xs (un x) []

/-- `partial_sum` (partial_sum.hpp 56-97, 131-175), `inclusive_scan` (inclusive_scan.hpp 27-47) -/
def partialSumTo (op : α → α → α) (xs : List α) (c : Cont α) : Option (Cont α) := transformInclusiveScanTo op id xs c

/-- `inclusive_scan` with an initial value (inclusive_scan.hpp 49-101) -/
def inclusiveScanInitTo (op : α → α → α) (xs : List α) (init : α) (c : Cont α) : Option (Cont α) :=
  if c.static = 0 then some (remake c c c.size [])
  else if c.static = 1 then some (remake c c c.size [init])
  else if xs = [] then complate c [init]
  else inclusiveImpl1 c op id xs init []

/-- `transform_inclusive_scan` with an initial value (transform_inclusive_scan.hpp 99-152): the overloads for `static_size` 0 and 1
(100-127) have no parameter `unary_op` and are not viable -/
def transformInclusiveScanInitTo (op : α → α → α) (un : β → α) (xs : List β) (init : α) (c : Cont α) : Option (Cont α) :=
  if c.static ≤ 1 then none
  else match xs with
    | [] => complate c [init]
    | x :: xs => inclusiveImpl1 c op un (x :: xs) init []

/-- `transform_exclusive_scan_impl_1` (transform_exclusive_scan.hpp 23-56); `exclusive_scan_impl_1` (exclusive_scan.hpp 23-56, and with
`binary_op`) is the same without `unary_op` -/
def exclusiveImpl1 (c : Cont α) (op : α → α → α) (un : β → α) : List β → α → α → List α → Option (Cont α)
  | [], value, _, args =>
    if c.static = args.length + 1 then some (remake c c c.size (args ++ [value])) else complate c (args ++ [value])
  | x :: xs, value, temp, args =>
    if c.static = args.length + 1 then some (remake c c c.size (args ++ [value]))
    else if ((args.length + 1 : Nat) : Int) < c.size then exclusiveImpl1 c op un xs (op value temp) (un x) (args ++ [value])
    else complate c (args ++ [value])

/-- `transform_exclusive_scan` (transform_exclusive_scan.hpp 57-111) -/
def transformExclusiveScanTo (op : α → α → α) (un : β → α) (xs : List β) (init : α) (c : Cont α) : Option (Cont α) :=
  if c.static = 0 then complate c []
  else if c.static = 1 then complate c [init]
  else match xs with
    | [] => complate c [init]
    | x :: xs => exclusiveImpl1 c op un xs init (un x) []

/-- `exclusive_scan` (exclusive_scan.hpp 57-111, and with `binary_op`) -/
def exclusiveScanTo (op : α → α → α) (xs : List α) (init : α) (c : Cont α) : Option (Cont α) := transformExclusiveScanTo op id xs init c

/-- `adjacent_difference_impl_1` (adjacent_difference.hpp 25-54, 99-128) -/
def adjDiffImpl1 (c : Cont α) (op : α → α → α) : List α → α → List α → Option (Cont α)
  | [], _, args => if c.static = args.length then some (remake c c c.size args) else complate c args
  | x :: xs, value, args =>
    if c.static = args.length then some (remake c c c.size args)
    else if ((args.length : Nat) : Int) < c.size then adjDiffImpl1 c op xs x (args ++ [op x value])
    else complate c args

/-- the version of `adjacent_difference_impl` for containers that are not empty, misnamed `adjacent_difference_impl_1`
(adjacent_difference.hpp 67-82, 142-157) -/
def adjDiffEntry (c : Cont α) (op : α → α → α) : List α → Option (Cont α)
  | [] => complate c []
  | x :: xs => adjDiffImpl1 c op xs x [x]

/-- `adjacent_difference` (adjacent_difference.hpp 84-96, 159-171): of `adjacent_difference_impl` there is only the version for
`static_size` 0 (55-66, 130-141) -/
def adjacentDifferenceTo (_op : α → α → α) (_xs : List α) (c : Cont α) : Option (Cont α) :=
  if c.static = 0 then some (remake c c c.size []) else none

/-- `iota_impl` (iota.hpp 25-40); `step k` is `value + k`, converted to the element type -/
def iotaTo (step : Int → α) (c : Cont α) : Option (Cont α) := do
  let args ← pack c.static fun i =>
    if (i : Int) ≥ c.beginOff ∧ (i : Int) < c.beginOff + c.size then some (step (i - c.beginOff)) else internalAt c i
  some (remake c c c.size args)

end Sprout.FixedAlg
