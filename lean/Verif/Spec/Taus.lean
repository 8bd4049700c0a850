import Verif.Basic

/-! # Tausworthe sequences: bits with the recurrence `b (n + k) = b (n + q) + b n` -/

namespace Sprout.Spec

def IsTaus (k q : Nat) (b : Nat → Bool) : Prop := ∀ n, b (n + k) = (b (n + q) ^^ b n)

/-- no `k` consecutive bits are all zero -/
def NeverZero (k : Nat) (b : Nat → Bool) : Prop := ∀ n, ∃ i, i < k ∧ b (n + i) = true

/-- bit `i` of a `w`-bit word, counted from the top -/
def leadBit (w x i : Nat) : Bool := x.testBit (w - 1 - i)

end Sprout.Spec
