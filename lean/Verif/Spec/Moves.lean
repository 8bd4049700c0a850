import Mathlib.Data.List.Basic

/-!
# Reference notions for element movers, stated on plain lists
-/

namespace Sprout.Spec
variable {α : Type}

/-- `m` with the elements from position `d` on replaced by `ys`. -/
def overwrite (m : List α) (d : Nat) (ys : List α) : List α :=
  m.take d ++ ys ++ m.drop (d + ys.length)

/-- the rest of a run compression, the last kept element being `v` -/
def dedupFrom (p : α → α → Bool) (v : α) : List α → List α
  | [] => []
  | y :: ys => if p v y then dedupFrom p v ys else y :: dedupFrom p y ys

/-- the first element of every run of `p`-equal elements -/
def dedup (p : α → α → Bool) : List α → List α
  | [] => []
  | x :: xs => x :: dedupFrom p x xs

end Sprout.Spec
