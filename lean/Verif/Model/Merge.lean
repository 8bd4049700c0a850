import Verif.Model.Moves
import Verif.Model.MinMax
import Verif.Model.BinarySearch
import Verif.Model.Doubling

/-!
# merge, inplace_merge, the set operations and includes

The two inputs and the output lie in one block `m`, so the model also covers overlapping ranges.
-/

namespace Sprout
variable {α : Type}

/-- what one round of a two-input loop does: advance the first, the second or both inputs;
the flag says whether an element is written (`both` and `left` write `*first1`, `right` writes `*first2`) -/
inductive Act where
  | left (emit : Bool)
  | right (emit : Bool)
  | both (emit : Bool)

/-- optional `*result++ = x` -/
def emitIf (e : Bool) (m : List α) (result : Nat) (x : α) : Option (List α × Nat) :=
  if e then do
    let m ← wr m result x
    some (m, result + 1)
  else some (m, result)

/-- The common shape of `merge`, `set_union`, `set_intersection`, `set_difference` and
`set_symmetric_difference`. `k1`/`k2`: whether the rest of the first/second input is copied at the end. -/
def merge2 (dec : α → α → Act) (k1 k2 : Bool) (m : List α) (first1 last1 first2 last2 result : Nat) : Option (List α × Nat) :=
  if first1 = last1 then (if k2 then copy m first2 last2 result else some (m, result))
  else if first2 = last2 then (if k1 then copy m first1 last1 result else some (m, result))
  else do
    let x ← rd m first1
    let y ← rd m first2
    match dec x y with
    | .left e => do
      let r ← emitIf e m result x
      merge2 dec k1 k2 r.1 (first1 + 1) last1 first2 last2 r.2
    | .right e => do
      let r ← emitIf e m result y
      merge2 dec k1 k2 r.1 first1 last1 (first2 + 1) last2 r.2
    | .both e => do
      let r ← emitIf e m result x
      merge2 dec k1 k2 r.1 (first1 + 1) last1 (first2 + 1) last2 r.2
partial_fixpoint

/-- `*result++ = comp(*first2, *first1) ? *first2++ : *first1++` (cxx14/merge.hpp 34-37) -/
def mergeDec (comp : α → α → Bool) (x y : α) : Act := if comp y x then .right true else .left true
/-- cxx14/set_union.hpp 34-45 -/
def unionDec (comp : α → α → Bool) (x y : α) : Act :=
  if comp x y then .left true else if comp y x then .right true else .both true
/-- cxx14/set_intersection.hpp 27-36 -/
def intersectionDec (comp : α → α → Bool) (x y : α) : Act :=
  if comp x y then .left false else if comp y x then .right false else .both true
/-- cxx14/set_difference.hpp 28-37 -/
def differenceDec (comp : α → α → Bool) (x y : α) : Act :=
  if comp x y then .left true else if comp y x then .right false else .both false
/-- cxx14/set_symmetric_difference.hpp 34-45 -/
def symmetricDifferenceDec (comp : α → α → Bool) (x y : α) : Act :=
  if comp x y then .left true else if comp y x then .right true else .both false

/-- `sprout::merge` (cxx14/merge.hpp 25-39) -/
def merge (comp : α → α → Bool) : List α → Nat → Nat → Nat → Nat → Nat → Option (List α × Nat) :=
  merge2 (mergeDec comp) true true
/-- `sprout::set_union` (cxx14/set_union.hpp 25-47) -/
def setUnion (comp : α → α → Bool) : List α → Nat → Nat → Nat → Nat → Nat → Option (List α × Nat) :=
  merge2 (unionDec comp) true true
/-- `sprout::set_intersection` (cxx14/set_intersection.hpp 24-39) -/
def setIntersection (comp : α → α → Bool) : List α → Nat → Nat → Nat → Nat → Nat → Option (List α × Nat) :=
  merge2 (intersectionDec comp) false false
/-- `sprout::set_difference` (cxx14/set_difference.hpp 25-40): the final `copy(first1, last1, result)` copies
nothing when the first input is exhausted -/
def setDifference (comp : α → α → Bool) : List α → Nat → Nat → Nat → Nat → Nat → Option (List α × Nat) :=
  merge2 (differenceDec comp) true false
/-- `sprout::set_symmetric_difference` (cxx14/set_symmetric_difference.hpp 25-47) -/
def setSymmetricDifference (comp : α → α → Bool) : List α → Nat → Nat → Nat → Nat → Nat → Option (List α × Nat) :=
  merge2 (symmetricDifferenceDec comp) true true

/-- `sprout::detail::inplace_merge` (cxx14/inplace_merge.hpp 23-59) -/
def inplaceMergeImpl (comp : α → α → Bool) (m : List α) (first middle last len1 len2 : Nat) : Option (List α) :=
  if len1 = 0 ∨ len2 = 0 then some m
  else if len1 + len2 = 2 then do
    if ← cmpAt comp m middle first then swp m first middle else some m
  else if len1 > len2 then do
    let len11 := len1 / 2
    let firstCut := first + len11
    let v ← rd m firstCut
    let secondCut := (← lowerBound m middle last v comp).1
    let len22 := secondCut - middle
    let r ← rotate m firstCut middle secondCut
    let newMiddle := firstCut + (secondCut - middle)
    let m ← inplaceMergeImpl comp r.1 first firstCut newMiddle len11 len22
    inplaceMergeImpl comp m newMiddle secondCut last (len1 - len11) (len2 - len22)
  else do
    let len22 := len2 / 2
    let secondCut := middle + len22
    let v ← rd m secondCut
    let firstCut := (← upperBound m first middle v comp).1
    let len11 := firstCut - first
    let r ← rotate m firstCut middle secondCut
    let newMiddle := firstCut + (secondCut - middle)
    let m ← inplaceMergeImpl comp r.1 first firstCut newMiddle len11 len22
    inplaceMergeImpl comp m newMiddle secondCut last (len1 - len11) (len2 - len22)
partial_fixpoint

/-- `sprout::inplace_merge` (cxx14/inplace_merge.hpp 64-74) -/
def inplaceMerge (comp : α → α → Bool) (m : List α) (first middle last : Nat) : Option (List α) :=
  if first = middle ∨ middle = last then some m
  else inplaceMergeImpl comp m first middle last (middle - first) (last - middle)

/-- leaf of `includes_impl_ra` (includes.hpp 32-34); the state is the position in the second range and
the flag "failed" -/
def incLeaf (comp : α → α → Bool) (m1 m2 : List α) (i j : Nat) : Option (Nat × Bool) := do
  let x ← rd m1 i
  let y ← rd m2 j
  some (if comp y x then (j, true) else if comp x y then (j, false) else (j + 1, false))

/-- `includes_impl_ra` (includes.hpp 21-47) -/
def includesImplRa (comp : α → α → Bool) (m1 m2 : List α) (last2 : Nat) (i : Nat) (cur : Nat × Bool) (len : Nat) : Option (Nat × Bool) :=
  if cur.2 ∨ cur.1 = last2 then some cur
  else if len = 1 then incLeaf comp m1 m2 i cur.1
  else do
    let c ← includesImplRa comp m1 m2 last2 i cur (len / 2)
    includesImplRa comp m1 m2 last2 (i + len / 2) c (len - len / 2)
partial_fixpoint

/-- `sprout::includes`, random access (includes.hpp 53-67) -/
def includesRa (comp : α → α → Bool) (m1 m2 : List α) (first1 last1 first2 last2 : Nat) : Option Bool :=
  if first1 = last1 then some (first2 == last2)
  else do
    let r ← includesImplRa comp m1 m2 last2 first1 (first2, false) (last1 - first1)
    some (r.1 == last2)

/-- `sprout::includes`, input iterators (includes.hpp 69-126). `includes_impl_1` halves with `n / 2` twice;
`n` is always a power of two, so that is the same as `n / 2` and `n - n / 2`. -/
def includesIn (comp : α → α → Bool) (m1 m2 : List α) (first1 last1 first2 last2 : Nat) : Option Bool :=
  if first2 = last2 then some true
  else do
    let r ← dbl (finIf fun s : Nat × Nat => s.2 == last2 || s.1 == last1)
      (fun s => do
        let x ← rd m1 s.1
        let y ← rd m2 s.2
        some (if comp y x then (last1, s.2) else (s.1 + 1, if comp x y then s.2 else s.2 + 1)))
      (first1, first2) 1
    some (r.2 == last2)

end Sprout
