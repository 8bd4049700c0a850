import Verif.Model.Find
import Verif.Model.MinMax
import Mathlib.Order.Defs.LinearOrder

/-!
# one_of, is_partitioned, the monotonicity tests, clamp, min and max of lists
-/

namespace Sprout
variable {α : Type}

/-- `detail::one_of_impl_ra` (sprout/algorithm/one_of.hpp 38-59; `one_of_impl_ra_1` of lines 20-37 is `halveAll` of the negated test);
one_of_equal.hpp 20-59 is the same with `*first == value` -/
def halveOne (m : List α) (p : α → Bool) (first last pivot : Nat) : Option Bool :=
  if pivot = 0 then testAt m p first
  else do
    let a ← halveOne m p first (first + pivot) (pivot / 2)
    if a then halveAll (testAt m (fun x => !p x)) (first + pivot) last ((last - first - pivot) / 2)
    else halveOne m p (first + pivot) last ((last - first - pivot) / 2)
partial_fixpoint

/-- `one_of`, random access (one_of.hpp 60-73) -/
def oneOfRa (m : List α) (first last : Nat) (p : α → Bool) : Option Bool :=
  if first = last then some false else halveOne m p first last ((last - first) / 2)

/-- the common loop of `one_of_impl` (one_of.hpp 75-112) and `is_partitioned_impl` (is_partitioned.hpp 45-82), which differ in the test `z`
that keeps the state 0: state (position, count), the count stops at 2 -/
def countTo2 (z p : α → Bool) (m : List α) (first last : Nat) : Option Nat := do
  let r ← dbl (finIf fun s : Nat × Nat => decide (s.2 > 1) || s.1 == last)
    (fun s => do
      let x ← rd m s.1
      some (if s.2 = 0 then (if z x then (s.1 + 1, 0) else (s.1 + 1, 1))
        else (if !p x then (s.1 + 1, 1) else (s.1, 2))))
    (first, 0) 1
  some r.2

/-- `one_of`, input iterators (one_of.hpp 113-122) -/
def oneOfIn (m : List α) (first last : Nat) (p : α → Bool) : Option Bool := do
  let c ← countTo2 (fun x => !p x) p m first last
  some (c == 1)

/-- `one_of_equal` (one_of_equal.hpp) -/
def oneOfEqualRa [BEq α] (m : List α) (first last : Nat) (v : α) : Option Bool := oneOfRa m first last (fun x => x == v)
/-- `one_of_equal`, input iterators -/
def oneOfEqualIn [BEq α] (m : List α) (first last : Nat) (v : α) : Option Bool := oneOfIn m first last (fun x => x == v)

/-- `is_partitioned`, random access (is_partitioned.hpp 22-43) -/
def isPartitionedRa (m : List α) (first last : Nat) (p : α → Bool) : Option Bool := do
  let k ← findIfNotRa m first last p
  if k = last then some true else noneOfRa m (k + 1) last p

/-- `is_partitioned`, input iterators (is_partitioned.hpp 83-92) -/
def isPartitionedIn (m : List α) (first last : Nat) (p : α → Bool) : Option Bool := do
  let c ← countTo2 p p m first last
  some (decide (c ≤ 1))

/-- `clamp` (clamp.hpp 20-27) -/
def clamp (comp : α → α → Bool) (value low high : α) : α :=
  if comp value low then low else if comp high value then high else value

/-- `min(initializer_list, comp)` (min.hpp 24-28) -/
def minIl (comp : α → α → Bool) (t : List α) : Option α := do
  let i ← minElementRa comp t 0 t.length
  rd t i

/-- `max(initializer_list, comp)` (max.hpp 24-28) -/
def maxIl (comp : α → α → Bool) (t : List α) : Option α := do
  let i ← maxElementRa comp t 0 t.length
  rd t i

/-- `minmax(a, b, comp)` (minmax.hpp 23-27) -/
def minmax2 (comp : α → α → Bool) (a b : α) : α × α := if comp b a then (b, a) else (a, b)

section
variable [LinearOrder α]
/-- `is_increasing` (is_increasing.hpp 23-30): `is_sorted` with `less`; first random access, then forward iterators -/
def isIncreasing (m : List α) (first last : Nat) : Option Bool × Option Bool :=
  (isSortedRa (fun a b => decide (a < b)) m first last, isSortedFw (fun a b => decide (a < b)) m first last)
/-- `is_strictly_increasing` (is_strictly_increasing.hpp 23-30): `is_sorted` with `less_equal` -/
def isStrictlyIncreasing (m : List α) (first last : Nat) : Option Bool × Option Bool :=
  (isSortedRa (fun a b => decide (a ≤ b)) m first last, isSortedFw (fun a b => decide (a ≤ b)) m first last)
/-- `is_decreasing` (is_decreasing.hpp 23-30): `is_sorted` with `greater` -/
def isDecreasing (m : List α) (first last : Nat) : Option Bool × Option Bool :=
  (isSortedRa (fun a b => decide (b < a)) m first last, isSortedFw (fun a b => decide (b < a)) m first last)
/-- `is_strictly_decreasing` (is_strictly_decreasing.hpp 23-30): `is_sorted` with `greater_equal` -/
def isStrictlyDecreasing (m : List α) (first last : Nat) : Option Bool × Option Bool :=
  (isSortedRa (fun a b => decide (b ≤ a)) m first last, isSortedFw (fun a b => decide (b ≤ a)) m first last)
end

end Sprout
