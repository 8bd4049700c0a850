import Verif.Model.Find

/-!
# is_permutation

`sprout/algorithm/is_permutation.hpp`. `fnd` and `cnt` are the overloads of `find_if` and `count_if` chosen by
the iterator category.
-/

namespace Sprout
variable {α : Type}

abbrev FindFn (α : Type) := List α → Nat → Nat → (α → Bool) → Option Nat

/-- `is_permutation_impl_check` (is_permutation.hpp 25-30); short-circuit `&&` -/
def permCheck (cnt : FindFn α) (m1 : List α) (pred : α → α → Bool) (count first last : Nat) : Option Bool :=
  if count ≠ 0 then do
    let x ← rd m1 first
    let c ← cnt m1 (first + 1) last (fun z => pred z x)
    some (c + 1 == count)
  else some false

/-- the test of one element (is_permutation.hpp 40-44, 82-86); short-circuit `||` -/
def permOne (fnd cnt : FindFn α) (m1 m2 : List α) (pred : α → α → Bool) (first1 last1 first2 last2 current : Nat) : Option Bool := do
  let x ← rd m1 current
  let f ← fnd m1 first1 current (fun z => pred z x)
  if f ≠ current then some true
  else do
    let c ← cnt m2 first2 last2 (fun z => pred z x)
    permCheck cnt m1 pred c current last1

/-- `is_permutation_impl_ra` (is_permutation.hpp 31-54); short-circuit `&&` -/
def permImplRa (test : Nat → Option Bool) (current size : Nat) : Option Bool :=
  if size = 1 then test current
  else do
    let a ← permImplRa test current (size / 2)
    if a then permImplRa test (current + size / 2) (size - size / 2) else some false
partial_fixpoint

/-- `is_permutation_impl_1` (is_permutation.hpp 72-97): state (current, so far) -/
def permImplFwd (test : Nat → Option Bool) (first last size : Nat) : Option Bool := do
  let r ← dbl1 (finIf fun s : Nat × Bool => !s.2 || s.1 == last)
    (fun s => do
      if ← test s.1 then some (s.1 + 1, true) else some (s.1, false))
    (first, true) size
  some r.2

/-- three-iterator `is_permutation`, random access (is_permutation.hpp 55-71, 133-138) -/
def isPermutationRa (m1 m2 : List α) (pred : α → α → Bool) (first1 last1 first2 : Nat) : Option Bool := do
  let (f1, f2) ← mismatchRa m1 m2 pred first1 last1 first2
  if f1 = last1 then some true
  else permImplRa (permOne findIfRa countIfRa m1 m2 pred f1 last1 f2 (f2 + (last1 - f1))) f1 (last1 - f1)

/-- three-iterator `is_permutation`, forward iterators (is_permutation.hpp 98-125, 133-138) -/
def isPermutationFwd (m1 m2 : List α) (pred : α → α → Bool) (first1 last1 first2 : Nat) : Option Bool := do
  let (f1, f2) ← mismatchIn m1 m2 pred first1 last1 first2
  if f1 = last1 then some true
  else permImplFwd (permOne findIfIn countIfIn m1 m2 pred f1 last1 f2 (f2 + (last1 - f1))) f1 last1 (last1 - f1)

/-- four-iterator `is_permutation`, random access (is_permutation.hpp 145-175, 223-228) -/
def isPermutation2Ra (m1 m2 : List α) (pred : α → α → Bool) (first1 last1 first2 last2 : Nat) : Option Bool :=
  if last1 - first1 = last2 - first2 then do
    let (f1, f2) ← mismatch2Ra m1 m2 pred first1 last1 first2 last2
    if f1 = last1 then some true
    else permImplRa (permOne findIfRa countIfRa m1 m2 pred f1 last1 f2 last2) f1 (last1 - f1)
  else some false

/-- four-iterator `is_permutation`, forward iterators (is_permutation.hpp 176-215, 223-228) -/
def isPermutation2Fwd (m1 m2 : List α) (pred : α → α → Bool) (first1 last1 first2 last2 : Nat) : Option Bool := do
  let (f1, f2) ← mismatch2In m1 m2 pred first1 last1 first2 last2
  if last1 - f1 = last2 - f2 then
    permImplFwd (permOne findIfIn countIfIn m1 m2 pred f1 last1 f2 last2) f1 last1 (last1 - f1)
  else some false

end Sprout
