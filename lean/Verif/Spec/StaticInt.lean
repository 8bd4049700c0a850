import Verif.Model.StaticInt

/-! # Specification of the compile-time integers -/

namespace Sprout
namespace Spec

/-- `p` is the smallest power of two that is not below `x` -/
def NextPow2 (x p : Int) : Prop :=
  (∃ k : Nat, p = 2 ^ k) ∧ x ≤ p ∧ ∀ k : Nat, x ≤ 2 ^ k → p ≤ 2 ^ k

/-- `d` is the number of digits of `n > 0` in base `b` -/
def NumDigits (b n d : Nat) : Prop := 0 < d ∧ b ^ (d - 1) ≤ n ∧ n < b ^ d

/-- `t` is the narrowest of the types with the given signedness that satisfy `fits` -/
def LeastTy (L : Nat) (sg : Bool) (fits : CInt → Prop) (t : StaticInt.Ty) : Prop :=
  (t.cint L).sg = sg ∧ fits (t.cint L) ∧
    ∀ u : StaticInt.Ty, (u.cint L).sg = sg → fits (u.cint L) → (t.cint L).w ≤ (u.cint L).w

end Spec
end Sprout
