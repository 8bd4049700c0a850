import Mathlib.Data.List.Basic

/-!
# Reference notions for searches, stated on plain lists
-/

namespace Sprout.Spec
variable {α β : Type}

/-- index of the first `i` such that elements `i` and `i + 1` are related, else the length -/
def adjIdx (p : α → α → Bool) : List α → Nat
  | [] => 0
  | [_] => 1
  | x :: y :: r => if p x y then 0 else adjIdx p (y :: r) + 1

/-- The pattern `ys` matches elementwise at index `i` of `xs`. -/
def MatchAt (p : α → β → Bool) (xs : List α) (ys : List β) (i : Nat) : Prop :=
  i + ys.length ≤ xs.length ∧ ∀ j x y, j < ys.length → xs[i + j]? = some x → ys[j]? = some y → p x y = true

/-- `r` is the least index in `[0, n)` satisfying `P`, or `n` if there is none. -/
def FirstIdx (P : Nat → Prop) (n r : Nat) : Prop :=
  r ≤ n ∧ (∀ k, k < r → ¬ P k) ∧ (r < n → P r)

/-- `r` is the greatest index in `[0, n)` satisfying `P`, or `n` if there is none. -/
def LastIdx (P : Nat → Prop) (n r : Nat) : Prop :=
  (r < n ∧ P r ∧ ∀ k, r < k → k < n → ¬ P k) ∨ (r = n ∧ ∀ k, k < n → ¬ P k)

/-- The required result of `find_end`: an empty pattern yields the end. -/
def FindEndIdx (p : α → β → Bool) (xs : List α) (ys : List β) (i : Nat) : Prop :=
  if ys = [] then i = xs.length else LastIdx (MatchAt p xs ys) xs.length i

/-- `count` consecutive elements starting at index `i` satisfy `q`. -/
def NRun (q : α → Bool) (xs : List α) (count i : Nat) : Prop :=
  i + count ≤ xs.length ∧ ∀ j x, i ≤ j → j < i + count → xs[j]? = some x → q x = true

end Sprout.Spec
