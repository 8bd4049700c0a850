import Verif.Spec.FixedAlg
import Verif.Model.Shuffle

/-! # Shuffling: what the draws of a generator do to a sequence -/

namespace Sprout.FixedAlg

variable {α σ : Type}

/-- the elements at `i` and `j` exchanged -/
def swapAt (l : List α) (i j : Nat) : List α :=
  match l[i]?, l[j]? with
  | some x, some y => (l.set i y).set j x
  | _, _ => l

/-- one after another the element at `i`, `i + 1`, … is exchanged with that at the position drawn -/
def swapsFrom : List α → Nat → List Nat → List α
  | l, _, [] => l
  | l, i, d :: ds => swapsFrom (swapAt l i d) (i + 1) ds

/-- the first `k` draws from `[0, d]` -/
def drawn (gen : Gen σ) (d : Nat) : Nat → σ → List Nat
  | 0, _ => []
  | k + 1, s => (gen s d).1 :: drawn gen d k (gen s d).2

/-- the state after `k` draws from `[0, d]` -/
def stateAfter (gen : Gen σ) (d : Nat) : Nat → σ → σ
  | 0, s => s
  | k + 1, s => stateAfter gen d k (gen s d).2

/-- the result of a repeated step -/
def steps {χ : Type} (step : χ → Option χ) : Nat → χ → Option χ
  | 0, x => some x
  | n + 1, x => step x >>= steps step n

/-- `y` is the first of the results of a repeated step, `x` itself included, for which `P` holds -/
def FirstWith {χ : Type} (P : χ → Prop) (step : χ → Option χ) (x y : χ) : Prop :=
  ∃ k, steps step k x = some y ∧ P y ∧ ∀ j < k, ∀ z, steps step j x = some z → ¬P z

end Sprout.FixedAlg
