import Verif.Model.Doubling

/-!
# Non-modifying searches: find / count / all_of / any_of / none_of / mismatch / equal /
adjacent_find / find_first_of

Every algorithm exists twice in Sprout: a halving recursion for random-access iterators
(`*_impl_ra`) and the doubling recursion for input iterators. A test at a position is a closure
reading memory, `Nat → Option Bool`, where `none` is an out-of-range read (UB).
-/

namespace Sprout
variable {α β : Type}

/-- The halving search skeleton, shared verbatim by
`find_impl_ra` (sprout/algorithm/find.hpp 20-39), `find_if_impl_ra` (find_if.hpp 20-39),
`find_if_not_impl_ra` (find_if_not.hpp 20-39), `adjacent_find_impl_ra` (adjacent_find.hpp 28-47),
`find_first_of_impl_ra` (find_first_of.hpp 23-44) and `mismatch_impl_ra` (mismatch.hpp 32-51).
`test first last` is the leaf condition (`last` is used by `adjacent_find` only). -/
def halveFind (test : Nat → Nat → Option Bool) (first last pivot found : Nat) : Option Nat :=
  if found ≠ first then some found
  else if pivot = 0 then do
    let b ← test first last
    some (if b then first else last)
  else do
    let f ← halveFind test first (first + pivot) (pivot / 2) first
    halveFind test (first + pivot) last ((last - first - pivot) / 2) f
partial_fixpoint

/-- The wrapper `first == last ? last : X_impl_ra(first, last, ..., distance / 2, first)`
(e.g. find_if.hpp 40-53). -/
def findRa (test : Nat → Nat → Option Bool) (first last : Nat) : Option Nat :=
  if first = last then some last
  else halveFind test first last ((last - first) / 2) first

/-- The doubling search skeleton `X_impl` / `X_impl_1` with state (position, found flag)
(find.hpp 55-100, find_if.hpp 55-100, find_if_not.hpp 55-100, find_first_of.hpp 65-116). -/
def findIn (test : Nat → Option Bool) (first last : Nat) : Option Nat := do
  let r ← dbl (finIf fun s : Nat × Bool => s.2 || s.1 == last)
    (fun s => do
      let b ← test s.1
      some (if b then (s.1, true) else (s.1 + 1, false)))
    (first, false) 1
  some r.1

/-- leaf test `pred(*it)` -/
def testAt (m : List α) (p : α → Bool) (i : Nat) : Option Bool := (rd m i).map p

/-- `sprout::find_if`, random access (sprout/algorithm/find_if.hpp 20-53). -/
def findIfRa (m : List α) (first last : Nat) (p : α → Bool) : Option Nat :=
  findRa (fun i _ => testAt m p i) first last
/-- `sprout::find_if`, input iterators (find_if.hpp 55-100). -/
def findIfIn (m : List α) (first last : Nat) (p : α → Bool) : Option Nat :=
  findIn (testAt m p) first last
/-- `sprout::find_if_not`, random access (sprout/algorithm/find_if_not.hpp 20-53). -/
def findIfNotRa (m : List α) (first last : Nat) (p : α → Bool) : Option Nat :=
  findRa (fun i _ => testAt m (fun x => !p x) i) first last
/-- `sprout::find_if_not`, input iterators (find_if_not.hpp 55-100). -/
def findIfNotIn (m : List α) (first last : Nat) (p : α → Bool) : Option Nat :=
  findIn (testAt m (fun x => !p x)) first last
/-- `sprout::find`, random access (sprout/algorithm/find.hpp 20-53). -/
def findValRa [BEq α] (m : List α) (first last : Nat) (v : α) : Option Nat :=
  findRa (fun i _ => testAt m (fun x => x == v) i) first last
/-- `sprout::find`, input iterators (find.hpp 55-100). -/
def findValIn [BEq α] (m : List α) (first last : Nat) (v : α) : Option Nat :=
  findIn (testAt m (fun x => x == v)) first last

/-- `count_if_impl_ra` (sprout/algorithm/count_if.hpp 20-37; count.hpp 20-37 with `== value`). -/
def halveCount (m : List α) (p : α → Bool) (first size : Nat) : Option Nat :=
  if size = 1 then do
    let x ← rd m first
    some (if p x then 1 else 0)
  else do
    let a ← halveCount m p first (size / 2)
    let b ← halveCount m p (first + size / 2) (size - size / 2)
    some (a + b)
partial_fixpoint

/-- `sprout::count_if`, random access (count_if.hpp 38-51). -/
def countIfRa (m : List α) (first last : Nat) (p : α → Bool) : Option Nat :=
  if first = last then some 0 else halveCount m p first (last - first)

/-- `sprout::count_if`, input iterators (count_if.hpp 53-98). -/
def countIfIn (m : List α) (first last : Nat) (p : α → Bool) : Option Nat := do
  let r ← dbl (finIf fun s : Nat × Nat => s.1 == last)
    (fun s => do
      let x ← rd m s.1
      some (s.1 + 1, s.2 + (if p x then 1 else 0)))
    (first, 0) 1
  some r.2

/-- `all_of_impl_ra` (sprout/algorithm/all_of.hpp 20-37; with `!pred` none_of.hpp 20-37),
`equal_impl_ra` (equal.hpp 22-39): conjunction over a halved range, short-circuit `&&`. -/
def halveAll (test : Nat → Option Bool) (first last pivot : Nat) : Option Bool :=
  if pivot = 0 then test first
  else do
    let a ← halveAll test first (first + pivot) (pivot / 2)
    if a then halveAll test (first + pivot) last ((last - first - pivot) / 2) else some false
partial_fixpoint

/-- `any_of_impl_ra` (sprout/algorithm/any_of.hpp 20-37), short-circuit `||`. -/
def halveAny (test : Nat → Option Bool) (first last pivot : Nat) : Option Bool :=
  if pivot = 0 then test first
  else do
    let a ← halveAny test first (first + pivot) (pivot / 2)
    if a then some true else halveAny test (first + pivot) last ((last - first - pivot) / 2)
partial_fixpoint

/-- `sprout::all_of`, random access (all_of.hpp 38-51). -/
def allOfRa (m : List α) (first last : Nat) (p : α → Bool) : Option Bool :=
  if first = last then some true else halveAll (testAt m p) first last ((last - first) / 2)
/-- `sprout::any_of`, random access (any_of.hpp 38-51). -/
def anyOfRa (m : List α) (first last : Nat) (p : α → Bool) : Option Bool :=
  if first = last then some false else halveAny (testAt m p) first last ((last - first) / 2)
/-- `sprout::none_of`, random access (none_of.hpp 20-51). -/
def noneOfRa (m : List α) (first last : Nat) (p : α → Bool) : Option Bool :=
  if first = last then some true
  else halveAll (testAt m (fun x => !p x)) first last ((last - first) / 2)

/-- `all_of_impl` (all_of.hpp 53-98): state (position, still true). -/
def allOfIn (m : List α) (first last : Nat) (p : α → Bool) : Option Bool := do
  let r ← dbl (finIf fun s : Nat × Bool => !s.2 || s.1 == last)
    (fun s => do
      let x ← rd m s.1
      some (if p x then (s.1 + 1, true) else (s.1, false)))
    (first, true) 1
  some r.2
/-- `any_of_impl` (any_of.hpp 53-98). -/
def anyOfIn (m : List α) (first last : Nat) (p : α → Bool) : Option Bool := do
  let r ← dbl (finIf fun s : Nat × Bool => s.2 || s.1 == last)
    (fun s => do
      let x ← rd m s.1
      some (if p x then (s.1, true) else (s.1 + 1, false)))
    (first, false) 1
  some r.2
/-- `none_of_impl` (none_of.hpp 53-98). -/
def noneOfIn (m : List α) (first last : Nat) (p : α → Bool) : Option Bool := do
  let r ← dbl (finIf fun s : Nat × Bool => !s.2 || s.1 == last)
    (fun s => do
      let x ← rd m s.1
      some (if !p x then (s.1 + 1, true) else (s.1, false)))
    (first, true) 1
  some r.2

/-- `pred(*it1, *it2)` on two blocks -/
def testAt2 (m1 : List α) (m2 : List β) (p : α → β → Bool) (i j : Nat) : Option Bool := do
  let x ← rd m1 i
  let y ← rd m2 j
  some (p x y)

/-- `sprout::mismatch(first1, last1, first2, pred)`, random access (sprout/algorithm/mismatch.hpp 24-71).
The second iterator advances in lockstep with the first, so at position `i` of the first range it is
`first2 + (i - first1)`; the result pair is formed by `mismatch_impl_check` (24-30). -/
def mismatchRa (m1 : List α) (m2 : List β) (p : α → β → Bool) (first1 last1 first2 : Nat) : Option (Nat × Nat) :=
  if first1 = last1 then some (first1, first2)
  else do
    let f ← halveFind (fun i _ => (testAt2 m1 m2 p i (first2 + (i - first1))).map (!·))
      first1 last1 ((last1 - first1) / 2) first1
    some (f, first2 + (f - first1))

/-- `sprout::mismatch(first1, last1, first2, pred)`, input iterators (mismatch.hpp 73-130). -/
def mismatchIn (m1 : List α) (m2 : List β) (p : α → β → Bool) (first1 last1 first2 : Nat) : Option (Nat × Nat) := do
  let r ← dbl (finIf fun s : Nat × Nat × Bool => s.2.2 || s.1 == last1)
    (fun s => do
      let b ← testAt2 m1 m2 p s.1 s.2.1
      some (if !b then (s.1, s.2.1, true) else (s.1 + 1, s.2.1 + 1, false)))
    (first1, first2, false) 1
  some (r.1, r.2.1)

/-- `sprout::mismatch(first1, last1, first2, last2, pred)`, random access (mismatch.hpp 150-182). -/
def mismatch2Ra (m1 : List α) (m2 : List β) (p : α → β → Bool) (first1 last1 first2 last2 : Nat) :
    Option (Nat × Nat) :=
  if first1 = last1 ∨ first2 = last2 then some (first1, first2)
  else do
    let size := min (last1 - first1) (last2 - first2)
    let f ← halveFind (fun i _ => (testAt2 m1 m2 p i (first2 + (i - first1))).map (!·))
      first1 (first1 + size) (size / 2) first1
    some (f, first2 + (f - first1))

/-- `sprout::mismatch(first1, last1, first2, last2, pred)`, input iterators (mismatch.hpp 184-246). -/
def mismatch2In (m1 : List α) (m2 : List β) (p : α → β → Bool) (first1 last1 first2 last2 : Nat) :
    Option (Nat × Nat) := do
  let r ← dbl (finIf fun s : Nat × Nat × Bool => s.2.2 || s.1 == last1 || s.2.1 == last2)
    (fun s => do
      let b ← testAt2 m1 m2 p s.1 s.2.1
      some (if !b then (s.1, s.2.1, true) else (s.1 + 1, s.2.1 + 1, false)))
    (first1, first2, false) 1
  some (r.1, r.2.1)

/-- `sprout::equal(first1, last1, first2, pred)`, random access (sprout/algorithm/equal.hpp 22-56). -/
def equalRa (m1 : List α) (m2 : List β) (p : α → β → Bool) (first1 last1 first2 : Nat) : Option Bool :=
  if first1 = last1 then some true
  else halveAll (fun i => testAt2 m1 m2 p i (first2 + (i - first1))) first1 last1 ((last1 - first1) / 2)

/-- `sprout::equal(first1, last1, first2, pred)`, input iterators (equal.hpp 58-107). -/
def equalIn (m1 : List α) (m2 : List β) (p : α → β → Bool) (first1 last1 first2 : Nat) : Option Bool := do
  let r ← dbl (finIf fun s : Nat × Nat × Bool => !s.2.2 || s.1 == last1)
    (fun s => do
      let b ← testAt2 m1 m2 p s.1 s.2.1
      some (if b then (s.1 + 1, s.2.1 + 1, true) else (s.1, s.2.1, false)))
    (first1, first2, true) 1
  some r.2.2

/-- `sprout::equal(first1, last1, first2, last2, pred)`, random access (equal.hpp 134-153). -/
def equal2Ra (m1 : List α) (m2 : List β) (p : α → β → Bool) (first1 last1 first2 last2 : Nat) : Option Bool :=
  if last1 - first1 = last2 - first2 then
    if first1 = last1 then some true
    else halveAll (fun i => testAt2 m1 m2 p i (first2 + (i - first1))) first1 last1 ((last1 - first1) / 2)
  else some false

/-- `sprout::equal(first1, last1, first2, last2, pred)`, input iterators (equal.hpp 127-132, 155-205). -/
def equal2In (m1 : List α) (m2 : List β) (p : α → β → Bool) (first1 last1 first2 last2 : Nat) : Option Bool := do
  let r ← dbl (finIf fun s : Nat × Nat × Bool => !s.2.2 || s.1 == last1 || s.2.1 == last2)
    (fun s => do
      let b ← testAt2 m1 m2 p s.1 s.2.1
      some (if b then (s.1 + 1, s.2.1 + 1, true) else (s.1, s.2.1, false)))
    (first1, first2, true) 1
  some (r.2.2 && r.1 == last1 && r.2.1 == last2)

/-- `sprout::adjacent_find`, random access (sprout/algorithm/adjacent_find.hpp 21-67):
the leaf compares `*first` with `*last` where `last = first + 1`. -/
def adjacentFindRa (m : List α) (first last : Nat) (p : α → α → Bool) : Option Nat :=
  if first = last ∨ last - first = 1 then some last
  else do
    let found ← halveFind (fun i j => testAt2 m m p i j) first (first + (last - first - 1))
      ((last - first - 1) / 2) first
    some (if last - found = 1 then last else found)

/-- `sprout::adjacent_find`, forward iterators (adjacent_find.hpp 69-128). -/
def adjacentFindFwd (m : List α) (first last : Nat) (p : α → α → Bool) : Option Nat :=
  if first = last then some last
  else do
    let r ← dbl (finIf fun s : Nat × Nat => s.2 == last)
      (fun s => do
        let b ← testAt2 m m p s.1 s.2
        some (if b then (s.1, last) else (s.2, s.2 + 1)))
      (first, first + 1) 1
    some (if r.1 + 1 = last then last else r.1)

/-- leaf of `find_first_of`: `find_if(first2, last2, bind1st(pred, *it)) != last2`
(sprout/algorithm/find_first_of.hpp 33, 75); `find_if` taken in its random-access form
(both forms are proved equal). -/
def firstOfTest (m1 : List α) (m2 : List β) (p : α → β → Bool) (first2 last2 : Nat) (i : Nat) : Option Bool := do
  let x ← rd m1 i
  let r ← findIfRa m2 first2 last2 (p x)
  some (r ≠ last2)

/-- `sprout::find_first_of`, random access (find_first_of.hpp 23-63). -/
def findFirstOfRa (m1 : List α) (m2 : List β) (p : α → β → Bool) (first1 last1 first2 last2 : Nat) : Option Nat :=
  findRa (fun i _ => firstOfTest m1 m2 p first2 last2 i) first1 last1
/-- `sprout::find_first_of`, input iterators (find_first_of.hpp 65-116). -/
def findFirstOfIn (m1 : List α) (m2 : List β) (p : α → β → Bool) (first1 last1 first2 last2 : Nat) : Option Nat :=
  findIn (firstOfTest m1 m2 p first2 last2) first1 last1

end Sprout
