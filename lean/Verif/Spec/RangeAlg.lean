import Verif.Basic
import Verif.Spec.Find
import Verif.Model.RangeAlg

/-!
# What a result on a range has to show
-/

namespace Sprout.Spec
open Sprout.RangeAlg
variable {α : Type}

/-- the range is the segment `xs` of a block `pre ++ xs ++ post` -/
def seg (pre xs post : List α) : Rng α := ⟨pre ++ xs ++ post, pre.length, pre.length + xs.length⟩

/-- the elements that a range of two iterators into the block shows -/
def shows (m : List α) : Packed → Option (List α)
  | .it _ => none
  | .rng i j => if i ≤ j ∧ j ≤ m.length then some ((m.drop i).take (j - i)) else none

/-- A result that has been found in front of index `i` of the segment `xs`: an iterator to this
element, the elements from it on, or the elements before it, as the caller demands. -/
def Cut (v : RetV) (pre xs post : List α) (i : Nat) (p : Packed) : Prop :=
  match v with
  | .found => p = .it (pre.length + i)
  | .foundEnd => shows (pre ++ xs ++ post) p = some (xs.drop i)
  | .beginFound => shows (pre ++ xs ++ post) p = some (xs.take i)

end Sprout.Spec
