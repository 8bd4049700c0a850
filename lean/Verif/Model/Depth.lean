import Verif.Model.BinarySearch
import Verif.Model.Numeric

/-!
# Recursion depth

The functions of Verif/Model/Doubling.lean, Find.lean, Numeric.lean and BinarySearch.lean with the depth of nested calls: the second
component of the result is the largest number of calls of the recursive functions that are active at the same time (a call in an argument is
active together with the function that makes it, a call in the returned expression too: there are no tail calls in constant expressions).
Calls of predicates, operations, `next` and reads are not counted.
-/

namespace Sprout.Depth

variable {σ α T : Type}

/-- `X_impl_1`, as `dbl1` (e.g. sprout/algorithm/find_if.hpp 55-73) -/
def dbl1D (fin step : σ → Option σ) (cur : σ) (n : Nat) : Option (σ × Nat) :=
  match fin cur with
  | some r => some (r, 1)
  | none =>
    if n = 1 then do
      let r ← step cur
      some (r, 1)
    else do
      let c ← dbl1D fin step cur (n / 2)
      let r ← dbl1D fin step c.1 (n - n / 2)
      some (r.1, 1 + max c.2 r.2)
partial_fixpoint

/-- `X_impl`, as `dbl` (e.g. sprout/algorithm/find_if.hpp 74-90) -/
def dblD (fin step : σ → Option σ) (cur : σ) (n : Nat) : Option (σ × Nat) :=
  match fin cur with
  | some r => some (r, 1)
  | none => do
    let c ← dbl1D fin step cur n
    let r ← dblD fin step c.1 (n * 2)
    some (r.1, 1 + max c.2 r.2)
partial_fixpoint

/-- `X_impl_ra` of searches, as `halveFind` (e.g. sprout/algorithm/find_if.hpp 20-39) -/
def halveFindD (test : Nat → Nat → Option Bool) (first last pivot found : Nat) : Option (Nat × Nat) :=
  if found ≠ first then some (found, 1)
  else if pivot = 0 then do
    let b ← test first last
    some (if b then first else last, 1)
  else do
    let f ← halveFindD test first (first + pivot) (pivot / 2) first
    let r ← halveFindD test (first + pivot) last ((last - first - pivot) / 2) f.1
    some (r.1, 1 + max f.2 r.2)
partial_fixpoint

/-- `all_of_impl_ra`, as `halveAll` (sprout/algorithm/all_of.hpp 20-37) -/
def halveAllD (test : Nat → Option Bool) (first last pivot : Nat) : Option (Bool × Nat) :=
  if pivot = 0 then do
    let b ← test first
    some (b, 1)
  else do
    let a ← halveAllD test first (first + pivot) (pivot / 2)
    if a.1 then do
      let b ← halveAllD test (first + pivot) last ((last - first - pivot) / 2)
      some (b.1, 1 + max a.2 b.2)
    else some (false, 1 + a.2)
partial_fixpoint

/-- `any_of_impl_ra`, as `halveAny` (sprout/algorithm/any_of.hpp 20-37) -/
def halveAnyD (test : Nat → Option Bool) (first last pivot : Nat) : Option (Bool × Nat) :=
  if pivot = 0 then do
    let b ← test first
    some (b, 1)
  else do
    let a ← halveAnyD test first (first + pivot) (pivot / 2)
    if a.1 then some (true, 1 + a.2)
    else do
      let b ← halveAnyD test (first + pivot) last ((last - first - pivot) / 2)
      some (b.1, 1 + max a.2 b.2)
partial_fixpoint

/-- `count_if_impl_ra`, as `halveCount` (sprout/algorithm/count_if.hpp 20-37) -/
def halveCountD (m : List α) (p : α → Bool) (first size : Nat) : Option (Nat × Nat) :=
  if size = 1 then do
    let x ← rd m first
    some (if p x then 1 else 0, 1)
  else do
    let a ← halveCountD m p first (size / 2)
    let b ← halveCountD m p (first + size / 2) (size - size / 2)
    some (a.1 + b.1, 1 + max a.2 b.2)
partial_fixpoint

/-- `accumulate_ra`, as `accRa` (sprout/numeric/accumulate.hpp 21-39) -/
def accRaD (m : List α) (op : T → α → T) (first last pivot : Nat) (init : T) : Option (T × Nat) :=
  if pivot = 0 then do
    let x ← rd m first
    some (op init x, 1)
  else do
    let a ← accRaD m op first (first + pivot) (pivot / 2) init
    let b ← accRaD m op (first + pivot) last ((last - first - pivot) / 2) a.1
    some (b.1, 1 + max a.2 b.2)
partial_fixpoint

/-- `lower_bound`, `upper_bound`, as `bisect` (sprout/algorithm/lower_bound.hpp 22-34, upper_bound.hpp 22-34) -/
def bisectD (test : Nat → Option Bool) (first len : Nat) : Option (Nat × Nat) :=
  if len = 0 then some (first, 1)
  else do
    let b ← test (first + len / 2)
    if b then do
      let r ← bisectD test (first + (len / 2 + 1)) (len - (len / 2 + 1))
      some (r.1, 1 + r.2)
    else do
      let r ← bisectD test first (len / 2)
      some (r.1, 1 + r.2)
partial_fixpoint

/-- `mask_index_impl` (sprout/detail/algorithm/mask_index.hpp 23-55): the depth, for a result with `cap` elements and size `len`, when `args`
indexes are found -/
def maskIndexD (cap len : Nat) : List Bool → Nat → Nat
  | [], _ => 1
  | b :: bs, args =>
    if cap = args then 1
    else if args < len then 1 + maskIndexD cap len bs (if b then args + 1 else args)
    else 1

end Sprout.Depth
