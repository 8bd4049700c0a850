/-!
# Arithmetic progressions with an excluded bound
-/

namespace Sprout
namespace IndexSeqSpec

/-- `x` comes before the bound `b` when going with the step `s` -/
def Before (s x b : Int) : Prop := if 0 < s then x < b else b < x

/-- `l` is the progression from `a` with step `s` up to the excluded bound `b`: all its elements come before `b`, the next one does not -/
structure IsRange (a b s : Int) (l : List Int) : Prop where
  elem : ∀ (k : Nat), k < l.length → l[k]? = some (a + k * s)
  inside : ∀ x ∈ l, Before s x b
  full : ¬ Before s (a + l.length * s) b

end IndexSeqSpec
end Sprout
