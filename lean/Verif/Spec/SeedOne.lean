import Mathlib.Data.Nat.Log
import Mathlib.Algebra.BigOperators.Group.Finset.Basic
import Mathlib.Data.Finset.Range
import Mathlib.Algebra.BigOperators.Intervals

/-!
# Seeding a linear congruential engine from a seed sequence, [rand.eng.lcong]

With `k = ⌈log₂ m / 32⌉` and an array `a` of `k + 3` words that the sequence generates, `S` is the sum of `a (j + 3) · 2 ^ (32 j)`
over `j < k`, modulo `m`; the state is `S`, or 1 if the increment and `S` are 0 modulo `m`.
-/

namespace Sprout.SeedSpec

/-- `⌈log₂ m / 32⌉` -/
def words (m : ℕ) : ℕ := Nat.clog (2 ^ 32) m

def oneInt (m : ℕ) (a : ℕ → List (BitVec 32)) : ℕ :=
  (∑ j ∈ Finset.range (words m), ((a (words m + 3)).getD (j + 3) 0).toNat * 2 ^ (32 * j)) % m

def lcgState (c m : ℕ) (a : ℕ → List (BitVec 32)) : ℕ :=
  if c % m = 0 ∧ oneInt m a = 0 then 1 else oneInt m a

end Sprout.SeedSpec
