/-!
# What the bit operations mean, bit by bit

Independent of the model: everything is said about the individual bits `x.getLsbD i`.
-/

namespace Sprout.Spec
variable {w : Nat}

/-- the widths of the unsigned integral types: `CHAR_BIT` times a power of two -/
def Width (w : Nat) : Prop := ∃ k, w = 8 * 2 ^ k

/-- number of one bits -/
def ones (x : BitVec w) : Nat := (List.range w).countP (fun i => x.getLsbD i)

/-- `k` is the number of trailing bits equal to `b` -/
def Trailing (b : Bool) (x : BitVec w) (k : Nat) : Prop :=
  k ≤ w ∧ (∀ i < k, x.getLsbD i = b) ∧ (k < w → x.getLsbD k = !b)

/-- `k` is the number of leading bits equal to `b` -/
def Leading (b : Bool) (x : BitVec w) (k : Nat) : Prop :=
  k ≤ w ∧ (∀ i < k, x.getLsbD (w - 1 - i) = b) ∧ (k < w → x.getLsbD (w - 1 - k) = !b)

/-- `n` is the least number with `x < 2^n` -/
def Length (x n : Nat) : Prop := x < 2 ^ n ∧ ∀ m < n, 2 ^ m ≤ x

/-- `AllBelow b x i`: every bit below position `i` equals `b` -/
def AllBelow (b : Bool) (x : BitVec w) (i : Nat) : Prop := ∀ j < i, x.getLsbD j = b

instance (b : Bool) (x : BitVec w) (i : Nat) : Decidable (AllBelow b x i) :=
  inferInstanceAs (Decidable (∀ j < i, x.getLsbD j = b))

end Sprout.Spec
