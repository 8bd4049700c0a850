import Verif.Basic

/-!
# Equidistribution

What it means that a procedure that consumes independent, equally likely numbers between `lo` and `hi` produces numbers that are equally likely:
for every `n`, each possible result is produced by the same number of sequences of `n` numbers (those after the last of which the procedure ends).
-/

namespace Sprout.Spec

/-- all sequences of `n` numbers between `lo` and `hi` -/
def allSeqs (lo hi : Int) : Nat → List (List Int)
  | 0 => [[]]
  | n + 1 => (List.range (hi + 1 - lo).toNat).flatMap fun (d : Nat) => (allSeqs lo hi n).map fun l => (lo + (d : Int)) :: l

/-- the number of sequences of length `n` that make `g` produce `r` and are then used up -/
def ways (g : List Int → Option (Int × List Int)) (lo hi : Int) (n : Nat) (r : Int) : Nat :=
  (allSeqs lo hi n).countP fun l => decide (g l = some (r, []))

/-- all numbers from `a` to `b` are produced, all with the same frequency -/
def Equidistributed (g : List Int → Option (Int × List Int)) (lo hi a b : Int) : Prop :=
  (∀ n r r', a ≤ r → r ≤ b → a ≤ r' → r' ≤ b → ways g lo hi n r = ways g lo hi n r') ∧ ∀ r, a ≤ r → r ≤ b → ∃ n, 0 < ways g lo hi n r

end Sprout.Spec
