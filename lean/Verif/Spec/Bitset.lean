/-!
# Bitsets as bit vectors

A `bitset<N>` denotes a function from positions `< N` to `Bool`. `Rep` relates the array of words to it: the array has
the right number of words, bit `i < N` is bit `i % B` of word `i / B`, and the unused bits of the last word are zero.
-/

namespace Sprout.Spec

/-- the words `ws` represent the `N`-bit vector `f` -/
def Rep (B N : Nat) (ws : List (BitVec B)) (f : Nat → Bool) : Prop :=
  ws.length = (N + B - 1) / B ∧
    ∀ (q : Nat) (w : BitVec B), ws[q]? = some w → ∀ r < B, w.getLsbD r = (decide (q * B + r < N) && f (q * B + r))

/-- number of set bits -/
def card (N : Nat) (f : Nat → Bool) : Nat := (List.range N).countP f

end Sprout.Spec
