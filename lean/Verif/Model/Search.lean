import Verif.Model.Find

/-!
# Subsequence searches: search / find_end / search_n
-/

namespace Sprout
variable {α β : Type}

/-- `sprout::detail::search_one`, random access (sprout/detail/algorithm/search_one.hpp 22-48).
Note that the mismatch result is `first1 + distance(first2, last2)`, not `last1`. -/
def searchOneRa (m1 : List α) (m2 : List β) (p : α → β → Bool) (first1 last1 first2 last2 : Nat) : Option Nat :=
  if last1 - first1 < last2 - first2 then some last1
  else if first1 = last1 then some first1
  else do
    let e := first1 + (last2 - first2)
    let r ← mismatchRa m1 m2 p first1 e first2
    some (if r.1 = e then first1 else e)

/-- `sprout::detail::search_one`, forward iterators (search_one.hpp 50-104).
State: (position in the text, position in the pattern, finished). -/
def searchOneFwd (m1 : List α) (m2 : List β) (p : α → β → Bool) (first1 last1 first2 last2 : Nat) : Option Nat := do
  let r ← dbl (fun s : Nat × Nat × Bool =>
      if s.2.2 then some s
      else if s.2.1 = last2 then some (first1, last2, true)
      else if s.1 = last1 then some (last1, last2, true)
      else none)
    (fun s => do
      let b ← testAt2 m1 m2 p s.1 s.2.1
      some (if !b then (s.1 + 1, last2, true) else (s.1 + 1, s.2.1 + 1, false)))
    (first1, first2, false) 1
  some r.1

/-- `search_impl_ra` (sprout/algorithm/search.hpp 22-43); `one first1` is
`search_one(first1, last1_, first2, last2, pred)`. -/
def searchHalve (one : Nat → Option Nat) (lastE first last pivot searched : Nat) : Option Nat :=
  if searched < first ∨ searched = lastE then some searched
  else if pivot = 0 then one first
  else do
    let f ← searchHalve one lastE first (first + pivot) (pivot / 2) first
    searchHalve one lastE (first + pivot) last ((last - first - pivot) / 2) f
partial_fixpoint

/-- `sprout::search`, random-access text (search.hpp 44-62). -/
def searchRaWith (one : Nat → Option Nat) (first1 last1 : Nat) : Option Nat :=
  if first1 = last1 then some last1
  else searchHalve one last1 first1 last1 ((last1 - first1) / 2) first1

/-- `sprout::search`, random-access text and pattern. -/
def searchRa (m1 : List α) (m2 : List β) (p : α → β → Bool) (first1 last1 first2 last2 : Nat) : Option Nat :=
  searchRaWith (fun i => searchOneRa m1 m2 p i last1 first2 last2) first1 last1

/-- `sprout::search`, random-access text, forward pattern (`search_one` then dispatches on the common category). -/
def searchRaFwd (m1 : List α) (m2 : List β) (p : α → β → Bool) (first1 last1 first2 last2 : Nat) : Option Nat :=
  searchRaWith (fun i => searchOneFwd m1 m2 p i last1 first2 last2) first1 last1

/-- `sprout::search`, forward text (search.hpp 64-123). State: (position, finished). -/
def searchFwd (m1 : List α) (m2 : List β) (p : α → β → Bool) (first1 last1 first2 last2 : Nat) : Option Nat := do
  let r ← dbl (finIf fun s : Nat × Bool => s.2 || s.1 == last1)
    (fun s => do
      let f ← searchOneFwd m1 m2 p s.1 last1 first2 last2
      some (if f = s.1 ∨ f = last1 then (f, true) else (s.1 + 1, false)))
    (first1, false) 1
  some r.1

/-- `find_end_impl_ra` with `find_end_impl_check_ra` (sprout/algorithm/find_end.hpp 23-56):
the right half is searched first. -/
def findEndHalve (one : Nat → Option Nat) (lastE first last pivot searched : Nat) : Option Nat :=
  if searched ≠ lastE then some searched
  else if pivot = 0 then do
    let s ← one first
    some (if s = first then s else lastE)
  else do
    let f ← findEndHalve one lastE (first + pivot) last ((last - first - pivot) / 2) lastE
    findEndHalve one lastE first (first + pivot) (pivot / 2) f
partial_fixpoint

/-- `sprout::find_end`, random access (find_end.hpp 57-91, 229-239). -/
def findEndRa (m1 : List α) (m2 : List β) (p : α → β → Bool) (first1 last1 first2 last2 : Nat) : Option Nat :=
  if first1 = last1 ∨ first2 = last2 then some last1
  else if last1 - first1 < last2 - first2 then some last1
  else
    let len1 := last1 - first1
    let len2 := last2 - first2
    findEndHalve (fun i => searchOneRa m1 m2 p i last1 first2 last2) last1 first1 (last1 - len2 + 1)
      ((len1 - len2 + 1) / 2) last1

/-- `sprout::prev(it)`: undefined at the beginning of the block. -/
def prv (i : Nat) : Option Nat := if i = 0 then none else some (i - 1)

/-- `sprout::detail::search_one_rev` (sprout/detail/algorithm/search_one_rev.hpp 21-96). -/
def searchOneRev (m1 : List α) (m2 : List β) (p : α → β → Bool) (first1 last1 first2 last2 : Nat) :
    Option (Nat × Bool) := do
  let r ← dbl (fun s : Nat × Nat × Bool =>
      if s.2.2 then some s
      else if s.2.1 = first2 then some (s.1, first2, true)
      else if s.1 = first1 then some (first1, s.2.1, true)
      else none)
    (fun s => do
      let i ← prv s.1
      let j ← prv s.2.1
      let b ← testAt2 m1 m2 p i j
      some (if b then (i, j, false) else (s.1, s.2.1, true)))
    (last1, last2, false) 1
  some (if r.2.1 = first2 then (r.1, false) else (last1, r.1 = first1))

/-- `sprout::find_end`, bidirectional iterators (find_end.hpp 93-159, 229-239).
State: (end of the candidate window, result so far). -/
def findEndBi (m1 : List α) (m2 : List β) (p : α → β → Bool) (first1 last1 first2 last2 : Nat) : Option Nat :=
  if first1 = last1 ∨ first2 = last2 then some last1
  else do
    let r ← dbl (finIf fun s : Nat × Nat => s.2 != last1 || s.1 == first1)
      (fun s => do
        let f ← searchOneRev m1 m2 p first1 s.1 first2 last2
        if f.2 then some (first1, s.2)
        else if f.1 = s.1 then do
          let q ← prv s.1
          some (q, s.2)
        else some (s.1, f.1))
      (last1, last1) 1
    some r.2

/-- `sprout::find_end`, forward iterators (find_end.hpp 161-221, 229-239). -/
def findEndFwd (m1 : List α) (m2 : List β) (p : α → β → Bool) (first1 last1 first2 last2 : Nat) : Option Nat :=
  if first1 = last1 ∨ first2 = last2 then some last1
  else do
    let r ← dbl (finIf fun s : Nat × Nat => s.1 == last1)
      (fun s => do
        let f ← searchOneFwd m1 m2 p s.1 last1 first2 last2
        some (if f = s.1 then (s.1 + 1, f) else if f = last1 then (last1, s.2) else (s.1 + 1, s.2)))
      (first1, last1) 1
    some r.2

/-- `search_n_impl_ra` (sprout/algorithm/search_n.hpp 21-40). The C++ test
`distance(searched, current) >= count` on signed integers is `searched + count ≤ current`. -/
def searchNHalve (m : List α) (q : α → Bool) (last count current len searched : Nat) : Option Nat :=
  if searched + count ≤ current ∨ searched = last then some searched
  else if len = 1 then do
    let x ← rd m current
    some (if q x then searched else if last - current > count then current + 1 else last)
  else do
    let s ← searchNHalve m q last count current (len / 2) searched
    searchNHalve m q last count (current + len / 2) (len - len / 2) s
partial_fixpoint

/-- `sprout::search_n`, random access (search_n.hpp 41-57, 128-134); `q` is `bind2nd(pred, value)`. -/
def searchNRa (m : List α) (q : α → Bool) (first last count : Nat) : Option Nat :=
  if count = 0 then some last
  else if count = 1 then findIfRa m first last q
  else if last - first < count then some last
  else searchNHalve m q last count first (last - first) first

/-- `sprout::search_n`, forward iterators (search_n.hpp 58-121, 128-134).
State: (position, start of the current run, length of the current run). -/
def searchNFwd (m : List α) (q : α → Bool) (first last count : Nat) : Option Nat :=
  if count = 0 then some last
  else if count = 1 then findIfIn m first last q
  else do
    let r ← dbl (finIf fun s : Nat × Nat × Nat => s.2.2 == count || s.1 == last)
      (fun s => do
        let x ← rd m s.1
        some (if q x then (s.1 + 1, s.2.1, s.2.2 + 1) else (s.1 + 1, s.1 + 1, 0)))
      (first, first, 0) 1
    some (if r.2.2 = count then r.2.1 else last)

end Sprout
