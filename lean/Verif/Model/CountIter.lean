import Verif.Model.RangeAdaptor

/-!
# counting_iterator, value_iterator, indexed_iterator; the adaptors counting, filled, indexed; adaptors that do not compile
-/

namespace Sprout.CountIter
open Adaptor RangeAdaptor
variable {σ α : Type}

/-! ### `counting_iterator<T>` for an integer type `T`: state `current_` -/

/-- the default constructor: the largest value (iterator/counting_iterator.hpp 44-48, 57-59) -/
def cnDefault (T : CInt) : Int := T.max
/-- `operator++`, `next` (iterator/counting_iterator.hpp 80-83, 117-119) -/
def cnNext (T : CInt) (v : Int) : Option Int := (T.arith (v + 1)).map T.conv
/-- `operator--`, `prev` (iterator/counting_iterator.hpp 89-92, 120-122) -/
def cnPrev (T : CInt) (v : Int) : Option Int := (T.arith (v - 1)).map T.conv
/-- the type of `T + ptrdiff_t` -/
def cnWide (T : CInt) : CInt := if T = .uint64 then .uint64 else .int64
/-- `operator+` (iterator/counting_iterator.hpp 98-100), `operator-` adds `-n` (101-103) -/
def cnAdd (T : CInt) (v n : Int) : Option Int := ((cnWide T).arith (v + n)).map T.conv
/-- `operator-` (iterator/counting_iterator.hpp 160-164) -/
def cnDiff (T : CInt) (a b : Int) : Option Int := (T.arith (a - b)).map CInt.int64.conv

/-- a range of `counting_iterator` -/
def cnRng (T : CInt) (f l : Int) : Rng Int Int where
  deref v := some v
  next := cnNext T
  eq a b := a == b
  add := cnAdd T
  diff := cnDiff T
  first := f
  last := l

/-- `counting(first)` (range/adaptor/counting.hpp 88-93) -/
def counting1 (T : CInt) (f : Int) : Rng Int Int := cnRng T f (cnDefault T)
/-- `counting(first, last)` (range/adaptor/counting.hpp 94-102) -/
def counting2 (T : CInt) (f l : Int) : Rng Int Int := cnRng T f l
/-- `range | counting(…)`: the constructor with `first` and `last` of the right operand; the comparison is made in `size_t`
(range/adaptor/counting.hpp 60-70, 137-146) -/
def countingPipe (T : CInt) (r : Rng σ α) (rhs : Rng Int Int) : Option (Rng Int Int) := do
  let n ← size r
  let d ← T.arith (rhs.last - rhs.first)
  if n < toU d then do
    let e ← cnAdd T rhs.first n
    some (cnRng T rhs.first e)
  else some (cnRng T rhs.first rhs.last)
/-- the constructor `counting_range(range)` (range/adaptor/counting.hpp 45-50) -/
def countingOf (T : CInt) (r : Rng σ α) : Option (Rng Int Int) := do
  let n ← size r
  let e ← cnAdd T (cnDefault T) n
  some (cnRng T (cnDefault T) e)
/-- the constructor `counting_range(range, first)` (range/adaptor/counting.hpp 51-59) -/
def countingFrom (T : CInt) (r : Rng σ α) (f : Int) : Option (Rng Int Int) := do
  let n ← size r
  let e ← cnAdd T f n
  some (cnRng T f e)

/-! ### `value_iterator`: the state is `index_`, which counts down -/

/-- a range of `value_iterator` (iterator/value_iterator.hpp 83-100, 121-126, 142-146, 172-176) -/
def valRng (v : α) (f l : Int) : Rng Int α where
  deref _ := some v
  next i := CInt.int64.arith (i - 1)
  eq a b := a == b
  add i n := CInt.int64.arith (i - n)
  diff a b := CInt.int64.arith (b - a)
  first := f
  last := l
/-- `operator<` (iterator/value_iterator.hpp 152-156) -/
def valLt (a b : Int) : Bool := decide (b < a)

/-- `filled` (range/adaptor/filled.hpp 45-53), also `blanked(n, value)` and `blanked_range(range)`
(range/adaptor/blanked.hpp 52-57, 106-114) -/
def filled (v : α) (r : Rng σ α) : Option (Rng Int α) := do
  let n ← size r
  some (valRng v n 0)

/-! ### `indexed_iterator`: the state is `current`, `idx` -/

/-- `indexed` (range/adaptor/indexed.hpp 44-55) with `indexed_iterator` (iterator/indexed_iterator.hpp 69-71, 75-79, 97-99, 116-121,
133-137, `operator-` of the bases); the value of an iterator `it` is taken to be `*it`, `it.index()` -/
def indexed (ix : Int) (r : Rng σ α) : Rng (σ × Int) (α × Int) where
  deref c := (r.deref c.1).map (·, c.2)
  next c := (r.next c.1).bind fun a => (CInt.int64.arith (c.2 + 1)).map (a, ·)
  eq a b := r.eq a.1 b.1
  add c n := (r.add c.1 n).bind fun a => (CInt.int64.arith (c.2 + n)).map (a, ·)
  diff a b := r.diff a.1 b.1
  first := (r.first, ix)
  last := (r.last, ix)

/-! ### template argument deduction, overload resolution, name lookup -/

/-- the template argument of `min(T const&, T const&)` (algorithm/detail/min.hpp 26-30): both arguments have to be of the same type -/
def deduceMin (t1 t2 : CInt) : Option CInt := if t1 = t2 then some t1 else none

/-- `range | steps(width, init)`: the constructor of `steps_range` with `min(init, sprout::size(range))`, where `init` is of the
signed type `difference_type` and the size of the unsigned type `size_type` (range/adaptor/steps.hpp 58-63, 121-128) -/
def steps (xs : List α) (width init : Int) : Option (Step × Step) := do
  let _ ← deduceMin .int64 .uint64
  let a ← padd xs.length 0 (min init xs.length)
  let f ← stMake xs a width xs.length
  let l ← stMake xs xs.length width xs.length
  some (f, l)
/-- `range | blanked(n, value)` (range/adaptor/blanked.hpp 67-76, 153-163) -/
def blankedPipe (v : α) (n : Int) (r : Rng σ α) : Option (Rng Int α) := do
  let _ ← deduceMin .int64 .uint64
  let m ← size r
  some (valRng v (min n m) 0)

/-- kinds of arguments of constructors -/
inductive Arg
  | pred
  | iter
  deriving DecidableEq

/-- the constructors of `filter_iterator` for predicates and iterators, which do not convert into each other
(iterator/filter_iterator.hpp 84-88; `last` defaults to `iterator_type()`) -/
def filterCtor : List Arg → Option Unit
  | [.pred, .iter] => some ()
  | [.pred, .iter, .iter] => some ()
  | _ => none
/-- the call in `removed`, `removed_if` (range/adaptor/removed.hpp 53, removed_if.hpp 53) -/
def removedCall : Option Unit := filterCtor [.iter, .pred]
/-- the call in `filtered` (range/adaptor/filtered.hpp 50-55) -/
def filteredCall : Option Unit := filterCtor [.pred, .iter, .iter]

/-- the iterator classes with a member `swap` -/
inductive Cls
  | step | move | next | valued | remake | indexed | reverse
  | adjacentFilter | alternate | bytes | clamp | counting | filter | index | insertRange | joint | ptrIndex | sizeEnum | transform
  | value | while
  deriving DecidableEq

/-- does the member `swap` call `sprout::swap` (iterator/…_iterator.hpp) or the unqualified `swap` (iterator/step_iterator.hpp 166,
move_iterator.hpp 129, next_iterator.hpp 97, valued_iterator.hpp 136, remake_iterator.hpp 213, indexed_iterator.hpp 128,
reverse_iterator.hpp 115)? -/
def swapQualified : Cls → Bool
  | .step | .move | .next | .valued | .remake | .indexed | .reverse => false
  | _ => true
/-- the call of `swap` with two arguments in a member function `swap` with one parameter: the unqualified name is the member, and
then there is no argument-dependent lookup -/
def memberSwap (c : Cls) (a b : σ) : Option (σ × σ) := if swapQualified c then some (b, a) else none
/-- `it += n`: `it + n` is computed and swapped with `it` (e.g. iterator/reverse_iterator.hpp 91-95, iterator/transform_iterator.hpp) -/
def addAssign (c : Cls) (add : σ → Int → Option σ) (it : σ) (n : Int) : Option σ := do
  let temp ← add it n
  let p ← memberSwap c temp it
  some p.2

end Sprout.CountIter
