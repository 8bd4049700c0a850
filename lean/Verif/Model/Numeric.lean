import Verif.Model.Doubling

/-!
# accumulate, reduce, transform_reduce

`inner_product` is not modelled: neither version of it can be instantiated (numeric/inner_product.hpp 32 calls an undeclared `binary_op`,
line 112 passes four arguments to the five-parameter `inner_product_impl`).
-/

namespace Sprout
variable {α β T : Type}

/-- `accumulate_ra` (sprout/numeric/accumulate.hpp 21-39) and, with `unary_op` inside `op`, `transform_reduce_ra`
(transform_reduce.hpp 141-159) -/
def accRa (m : List α) (op : T → α → T) (first last pivot : Nat) (init : T) : Option T :=
  if pivot = 0 then do
    let x ← rd m first
    some (op init x)
  else do
    let r ← accRa m op first (first + pivot) (pivot / 2) init
    accRa m op (first + pivot) last ((last - first - pivot) / 2) r
partial_fixpoint

/-- `accumulate`, random access (accumulate.hpp 40-57) -/
def accumulateRa (m : List α) (first last : Nat) (init : T) (op : T → α → T) : Option T :=
  if first = last then some init else accRa m op first last ((last - first) / 2) init

/-- `accumulate`, input iterators (accumulate.hpp 59-104) -/
def accumulateIn (m : List α) (first last : Nat) (init : T) (op : T → α → T) : Option T := do
  let r ← dbl (finIf fun s : Nat × T => s.1 == last)
    (fun s => do
      let x ← rd m s.1
      some (s.1 + 1, op s.2 x))
    (first, init) 1
  some r.2

/-- `reduce(first, last)` (reduce.hpp 23-27); `zero` is the value-initialised element -/
def reduce0 (m : List α) (first last : Nat) (zero : α) (plus : α → α → α) : Option α := accumulateRa m first last zero plus

/-- unary `transform_reduce`, random access (transform_reduce.hpp 160-177) -/
def transformReduceRa (m : List α) (first last : Nat) (init : T) (op : T → β → T) (un : α → β) : Option T :=
  accumulateRa m first last init fun t x => op t (un x)

/-- unary `transform_reduce`, input iterators (transform_reduce.hpp 179-226) -/
def transformReduceIn (m : List α) (first last : Nat) (init : T) (op : T → β → T) (un : α → β) : Option T :=
  accumulateIn m first last init fun t x => op t (un x)

/-- binary `transform_reduce_ra` (transform_reduce.hpp 22-41) -/
def trRa (m1 : List α) (m2 : List β) (op : T → α → β → T) (first1 last1 first2 pivot : Nat) (init : T) : Option T :=
  if pivot = 0 then do
    let x ← rd m1 first1
    let y ← rd m2 first2
    some (op init x y)
  else do
    let r ← trRa m1 m2 op first1 (first1 + pivot) first2 (pivot / 2) init
    trRa m1 m2 op (first1 + pivot) last1 (first2 + pivot) ((last1 - first1 - pivot) / 2) r
partial_fixpoint

/-- binary `transform_reduce`, random access (transform_reduce.hpp 42-60) -/
def transformReduce2Ra {γ : Type} (m1 : List α) (m2 : List β) (first1 last1 first2 : Nat) (init : T) (op1 : T → γ → T) (op2 : α → β → γ) : Option T :=
  if first1 = last1 then some init else trRa m1 m2 (fun t x y => op1 t (op2 x y)) first1 last1 first2 ((last1 - first1) / 2) init

/-- binary `transform_reduce`, input iterators (transform_reduce.hpp 62-113) -/
def transformReduce2In {γ : Type} (m1 : List α) (m2 : List β) (first1 last1 first2 : Nat) (init : T) (op1 : T → γ → T) (op2 : α → β → γ) : Option T := do
  let r ← dbl (finIf fun s : Nat × Nat × T => s.1 == last1)
    (fun s => do
      let x ← rd m1 s.1
      let y ← rd m2 s.2.1
      some (s.1 + 1, s.2.1 + 1, op1 s.2.2 (op2 x y)))
    (first1, first2, init) 1
  some r.2.2

/-- `partial_sum` after the first element (sprout/numeric/cxx14/partial_sum.hpp 33-37); `un` is the identity here and the unary operation in
transform_inclusive_scan.hpp 34-38, 52-56; returns the block and the result iterator -/
def psLoop (op : α → α → α) (un : α → α) (m : List α) (first last result : Nat) (sum : α) : Option (List α × Nat) :=
  if first + 1 ≠ last then do
    let x ← rd m (first + 1)
    let sum := op sum (un x)
    let m ← wr m (result + 1) sum
    psLoop op un m (first + 1) last (result + 1) sum
  else some (m, result + 1)
partial_fixpoint

/-- `transform_inclusive_scan` without initial value (cxx14/transform_inclusive_scan.hpp 40-57) -/
def transformInclusiveScan (op : α → α → α) (un : α → α) (m : List α) (first last result : Nat) : Option (List α × Nat) :=
  if first = last then some (m, result)
  else do
    let x ← rd m first
    let m ← wr m result (un x)
    psLoop op un m first last result (un x)

/-- `partial_sum` (cxx14/partial_sum.hpp 21-38) and `inclusive_scan` without initial value (cxx14/inclusive_scan.hpp 41-56) -/
def partialSum (op : α → α → α) (m : List α) (first last result : Nat) : Option (List α × Nat) :=
  transformInclusiveScan op id m first last result

/-- `transform_inclusive_scan` with initial value (cxx14/transform_inclusive_scan.hpp 20-39) -/
def transformInclusiveScanInit (op : α → α → α) (un : α → α) (m : List α) (first last result : Nat) (init : α) : Option (List α × Nat) := do
  let sum := init
  let m ← wr m result sum
  if first = last then some (m, result + 1)
  else do
    let x ← rd m first
    let sum := op sum (un x)
    let m ← wr m (result + 1) sum
    psLoop op un m first last (result + 1) sum

/-- `inclusive_scan` with initial value (cxx14/inclusive_scan.hpp 21-40) -/
def inclusiveScanInit (op : α → α → α) (m : List α) (first last result : Nat) (init : α) : Option (List α × Nat) :=
  transformInclusiveScanInit op id m first last result init

/-- the loop of `exclusive_scan` (cxx14/exclusive_scan.hpp 33-38, transform_exclusive_scan.hpp 33-38) -/
def exLoop (op : α → α → α) (un : α → α) (m : List α) (first last result : Nat) (sum temp : α) : Option (List α × Nat) :=
  if first + 1 ≠ last then do
    let sum := op sum temp
    let m ← wr m (result + 1) sum
    let x ← rd m (first + 1)
    exLoop op un m (first + 1) last (result + 1) sum (un x)
  else some (m, result + 1)
partial_fixpoint

/-- `transform_exclusive_scan` (cxx14/transform_exclusive_scan.hpp 20-39) -/
def transformExclusiveScan (op : α → α → α) (un : α → α) (m : List α) (first last result : Nat) (init : α) : Option (List α × Nat) := do
  let sum := init
  let m ← wr m result sum
  if first = last then some (m, result + 1)
  else do
    let x ← rd m first
    exLoop op un m first last result sum (un x)

/-- `exclusive_scan` (cxx14/exclusive_scan.hpp 20-39) -/
def exclusiveScan (op : α → α → α) (m : List α) (first last result : Nat) (init : α) : Option (List α × Nat) :=
  transformExclusiveScan op id m first last result init

/-- the loop of `adjacent_difference` (cxx14/adjacent_difference.hpp 34-39) -/
def adLoop (op : α → α → α) (m : List α) (first last result : Nat) (acc : α) : Option (List α × Nat) :=
  if first + 1 ≠ last then do
    let val ← rd m (first + 1)
    let m ← wr m (result + 1) (op val acc)
    adLoop op m (first + 1) last (result + 1) val
  else some (m, result + 1)
partial_fixpoint

/-- `adjacent_difference` (cxx14/adjacent_difference.hpp 22-40) -/
def adjacentDifference (op : α → α → α) (m : List α) (first last result : Nat) : Option (List α × Nat) :=
  if first = last then some (m, result)
  else do
    let acc ← rd m first
    let m ← wr m result acc
    adLoop op m first last result acc

/-- `iota` (cxx14/iota.hpp 17-24); `succ` is `++` -/
def iota (succ : α → α) (m : List α) (first last : Nat) (value : α) : Option (List α) :=
  if first ≠ last then do
    let m ← wr m first value
    iota succ m (first + 1) last (succ value)
  else some m
partial_fixpoint

end Sprout
