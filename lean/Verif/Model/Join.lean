import Verif.Model.BinarySearch
import Verif.Model.Adaptor

/-!
# Joining strings

`sprout/algorithm/string/join.hpp`, `sprout/range/adaptor/size_enumed.hpp`.

`cc` is the container of containers (each of at most `N` elements, its `static_size`), as lists of elements. The result has a fixed
capacity; the elements given to `make` are computed. The array of `partial_sum` is represented by the list of sums (C111).
`none` stands for an ill-formed call or an access out of range. Lengths of arrays are less than 2^64.
-/

namespace Sprout.Join

variable {α : Type}

/-- `results::join<ContainerContainer>` (join.hpp 91-101): the capacity of the result -/
def capacity (N M : Nat) : Nat := N * M

/-- `results::join<ContainerContainer, Separator>` (join.hpp 73-90), with `string_size` (28-49) `s` of the separator: there is no array
with a negative number of elements as `std::size_t` -/
def capacitySep (N M s : Nat) : Option Nat :=
  if N = 0 then some 0
  else if (N + s) * M < s then none
  else some ((N + s) * M - s)

/-- the sums of `fixed::partial_sum` (join.hpp 147-150, 327-330) -/
def sums : List Nat → Nat → List Nat
  | [], _ => []
  | n :: rest, acc => (acc + n) :: sums rest (acc + n)

/-- the loop over a range `size_enumed(s, true)` (numeric/fixed/partial_sum.hpp 44-55, 73-82), from the position `p` to the position `e` of
`size_enum_iterator` -/
def enumerate (cc : List (List α)) (s : Nat) (e p : Nat × Bool) : Option (List Nat) :=
  if Adaptor.seEq p e then some []
  else do
    let n ← Adaptor.seDeref (fun c => (c.length : Int)) s cc p
    let p' ← Adaptor.seNext cc p
    let rest ← enumerate cc s e p'
    some (n.toNat :: rest)
partial_fixpoint

/-- `cont_cont | size_enumed(s, true)` (range/adaptor/size_enumed.hpp 77-90, 140-154): begin and end -/
def sizesSep (cc : List (List α)) (s : Nat) : Option (List Nat) :=
  enumerate cc s (if cc.length = 0 then (cc.length, false) else (cc.length - 1, true)) (0, false)

/-- `found[-1]` or 0 -/
def before (sizes : List Nat) (found : Nat) : Option Nat := if found ≠ 0 then rd sizes (found - 1) else some 0

/-- `join_impl_ra_2` (join.hpp 105-118) with `lower_bound` (130) -/
def element [Inhabited α] (cc : List (List α)) (sizes : List Nat) (idx : Nat) : Option α := do
  let f ← lowerBound sizes 0 sizes.length (idx + 1) fun a b => decide (a < b)
  if f.1 = sizes.length then some default
  else do
    let c ← rd cc f.1
    let b ← before sizes f.1
    rd c (idx - b)

/-- `join_impl_ra` (join.hpp 119-152) -/
def joinRa [Inhabited α] (N : Nat) (cc : List (List α)) : Option (List α) :=
  (List.range (capacity N cc.length)).mapM (element cc (sums (cc.map List.length) 0))

/-- `join_impl_ra_2` with separator (join.hpp 279-293) and `lower_bound` (307) -/
def elementSep [Inhabited α] (cc : List (List α)) (sep : List α) (sizes : List Nat) (idx : Nat) : Option α := do
  let f ← lowerBound sizes 0 sizes.length (idx + 1) fun a b => decide (a < b)
  if f.1 = sizes.length then some default
  else if f.1 % 2 ≠ 0 then do
    let b ← rd sizes (f.1 - 1)
    rd sep (idx - b)
  else do
    let c ← rd cc (f.1 / 2)
    let b ← before sizes f.1
    rd c (idx - b)

/-- `join_impl_ra` with separator (join.hpp 294-332); `sep` without terminator (`str_size`, 51-66) -/
def joinRaSep [Inhabited α] (N : Nat) (cc : List (List α)) (sep : List α) : Option (List α) := do
  let cap ← capacitySep N cc.length sep.length
  let sz ← sizesSep cc sep.length
  (List.range cap).mapM (elementSep cc sep (sums sz 0))

/-- `join_impl`, `join_impl_1` (join.hpp 154-229) for other iterators: `args` are the arguments so far, the first list is what is left of
the current container -/
def joinSeq1 (cap : Nat) (cc : List (List α)) (cur : List α) (args : List α) : List α :=
  if cap = args.length then args
  else match cur with
    | x :: cur => joinSeq1 cap cc cur (args ++ [x])
    | [] =>
      match cc with
      | [] => args
      | c :: cc => joinSeq1 cap cc c args
termination_by (cc.length, cur.length)

/-- `join` for other iterators (join.hpp 248-267) -/
def joinSeq (N : Nat) (cc : List (List α)) : List α := joinSeq1 (capacity N cc.length) cc [] []

/-- `join` with separator for other iterators (join.hpp 463-488). `join_impl_1` (364-398) calls `join_impl` with separator, which is declared
behind it (399-421; 334-349 declare the functions without separator again): only the functions without separator are found, with
iterators and a `bool` as elements, which is ill-formed if it is instantiated, that is if the result has elements -/
def joinSeqSep (N : Nat) (cc : List (List α)) (sep : List α) : Option (List α) := do
  let cap ← capacitySep N cc.length sep.length
  if cap = 0 then some [] else none

/-- the contents of the string made of elements (string/string.hpp 1218-1234): up to the first null character -/
def content [Inhabited α] [DecidableEq α] (raw : List α) : List α := raw.takeWhile fun x => x ≠ default

end Sprout.Join
