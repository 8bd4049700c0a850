import Verif.Model.Find

/-!
# lexicographical_compare, tristate_lexicographical_compare, array comparison operators
-/

namespace Sprout
variable {α : Type}

/-- `lexicographical_compare_impl_ra` (sprout/detail/algorithm/lexicographical_compare.hpp 10-28): -1 less, 1 greater, 2 undecided -/
def lexImplRa (comp : α → α → Bool) (m1 m2 : List α) (first1 first2 size : Nat) (found : Int) : Option Int :=
  if found ≠ 2 then some found
  else if size = 1 then do
    let x ← rd m1 first1
    let y ← rd m2 first2
    some (if comp x y then -1 else if comp y x then 1 else 2)
  else do
    let r ← lexImplRa comp m1 m2 first1 first2 (size / 2) 2
    lexImplRa comp m1 m2 (first1 + size / 2) (first2 + size / 2) (size - size / 2) r
partial_fixpoint

/-- `lexicographical_compare_impl` and `_impl_1` (detail/algorithm/lexicographical_compare.hpp 30-69) -/
def lexImplIn (comp : α → α → Bool) (m1 m2 : List α) (first1 last1 first2 last2 : Nat) : Option (Nat × Nat) :=
  dbl (finIf fun s : Nat × Nat => s.2 == last2 || s.1 == last1)
    (fun s => do
      let x ← rd m1 s.1
      let y ← rd m2 s.2
      some (if comp x y then (last1, s.2) else if comp y x then (s.1, last2) else (s.1 + 1, s.2 + 1)))
    (first1, first2) 1

/-- `sprout::lexicographical_compare`, random access (sprout/algorithm/lexicographical_compare.hpp 24-55) -/
def lexCompareRa (comp : α → α → Bool) (m1 m2 : List α) (first1 last1 first2 last2 : Nat) : Option Bool :=
  if first2 = last2 then some false
  else if first1 = last1 then some true
  else do
    let found ← lexImplRa comp m1 m2 first1 first2 (min (last1 - first1) (last2 - first2)) 2
    some (decide (found < 0) || (found == 2 && decide (last1 - first1 < last2 - first2)))

/-- `sprout::lexicographical_compare`, input iterators (lexicographical_compare.hpp 57-81) -/
def lexCompareIn (comp : α → α → Bool) (m1 m2 : List α) (first1 last1 first2 last2 : Nat) : Option Bool := do
  let f ← lexImplIn comp m1 m2 first1 last1 first2 last2
  if f.2 = last2 then some false
  else if f.1 = last1 then some true
  else do
    let x ← rd m1 f.1
    let y ← rd m2 f.2
    some (comp x y)

/-- `sprout::tristate_lexicographical_compare`, random access (sprout/algorithm/tristate_lexicographical_compare.hpp 24-57) -/
def triCompareRa (comp : α → α → Bool) (m1 m2 : List α) (first1 last1 first2 last2 : Nat) : Option Int :=
  if first2 = last2 then some (if first1 = last1 then 0 else 1)
  else if first1 = last1 then some (-1)
  else do
    let found ← lexImplRa comp m1 m2 first1 first2 (min (last1 - first1) (last2 - first2)) 2
    some (if found ≠ 2 then found else if last1 - first1 < last2 - first2 then -1 else if last1 - first1 > last2 - first2 then 1 else 0)

/-- `sprout::tristate_lexicographical_compare`, input iterators (tristate_lexicographical_compare.hpp 59-86) -/
def triCompareIn (comp : α → α → Bool) (m1 m2 : List α) (first1 last1 first2 last2 : Nat) : Option Int := do
  let f ← lexImplIn comp m1 m2 first1 last1 first2 last2
  if f.2 = last2 then some (if f.1 = last1 then 0 else 1)
  else if f.1 = last1 then some (-1)
  else do
    let x ← rd m1 f.1
    let y ← rd m2 f.2
    some (if comp x y then -1 else if comp y x then 1 else 0)

/-- `operator==` of `sprout::array` (sprout/array/comparison.hpp 26-30): the three-iterator `equal`; both arrays have `N` elements -/
def arrEq (eq : α → α → Bool) (a b : List α) : Option Bool := equalRa a b eq 0 a.length 0
/-- `operator!=` (array/comparison.hpp 31-35) -/
def arrNe (eq : α → α → Bool) (a b : List α) : Option Bool := (arrEq eq a b).map (!·)
/-- `operator<` (array/comparison.hpp 36-40) -/
def arrLt (lt : α → α → Bool) (a b : List α) : Option Bool := lexCompareRa lt a b 0 a.length 0 b.length
/-- `operator>` (array/comparison.hpp 41-45) -/
def arrGt (lt : α → α → Bool) (a b : List α) : Option Bool := arrLt lt b a
/-- `operator<=` (array/comparison.hpp 46-50) -/
def arrLe (lt : α → α → Bool) (a b : List α) : Option Bool := (arrLt lt b a).map (!·)
/-- `operator>=` (array/comparison.hpp 51-55) -/
def arrGe (lt : α → α → Bool) (a b : List α) : Option Bool := (arrLt lt a b).map (!·)

end Sprout
